{
 "claims": [
  {
   "property": "C01",
   "status": "proved",
   "theorems": [
    "Faucet.HostCache.host_table_consistent",
    "Faucet.HostCache.host_table_refines_map"
   ],
   "note": "Host cache of a VLAN, all histories of learn/forget/clear/sweep/cold start."
  },
  {
   "property": "C02",
   "status": "proved",
   "theorems": [
    "Faucet.HostCache.expiry_exact",
    "Faucet.HostCache.expiry_needs_monotone_clock"
   ],
   "note": "Exact under a non-decreasing clock; the second theorem shows that hypothesis is needed."
  },
  {
   "property": "C03",
   "status": "proved",
   "theorems": [
    "Faucet.Learn.permanent_sticks"
   ],
   "note": "Over any history that does not take the port down, restart the switch or remove the host's rule."
  },
  {
   "property": "C04",
   "status": "partial",
   "theorems": [
    "Faucet.Learn.vlan_limit_respected",
    "Faucet.Learn.port_limit_respected_partial",
    "Faucet.Learn.port_limit_defect"
   ],
   "note": "VLAN limit proved for all histories. Port limit proved when hosts do not move between ports; false otherwise (port_limit_defect)."
  },
  {
   "property": "C05",
   "status": "partial",
   "theorems": [
    "Faucet.Learn.timeouts_ordered_partial",
    "Faucet.Learn.never_expires_iff",
    "Faucet.Learn.permanent_dst_expires_defect",
    "Faucet.Learn.dst_timeout_overflow_defect",
    "Faucet.Learn.refresh_without_dst_defect"
   ],
   "note": "Ordering proved for rules installed together on ports that are not permanent-learn; false for permanent-learn ports and for hosts that only send (defect theorems)."
  },
  {
   "property": "C06",
   "status": "proved",
   "theorems": [
    "Faucet.Learn.learning_reflects_last_sighting",
    "Faucet.Learn.move_cleans_switch",
    "Faucet.Learn.accepted_installs_rules"
   ],
   "note": "Host table and switch, over all reachable states; standalone switches."
  },
  {
   "property": "C07",
   "status": "partial",
   "theorems": [
    "Faucet.FlowReorder.reorder_preserves_flows_partial",
    "Faucet.FlowReorder.reorder_preserves_groups_meters",
    "Faucet.FlowReorder.reorder_preserves_switch_partial",
    "Faucet.FlowReorder.reorder_shadow_defect",
    "Faucet.FlowReorder.reorder_cookie_defect",
    "Faucet.FlowReorder.reorder_modify_defect",
    "Faucet.FlowReorder.reorder_outport_defect",
    "Faucet.FlowReorder.reorder_raises_defect"
   ],
   "note": "The unrestricted property is false of the code (five concrete defects are proved). It is proved for every slot not shadowed by a non-strict delete sharing its key with an add, for batches whose all-table deletes are plain and whose repeated adds agree on cookie, match object and command; groups and meters unconditionally."
  },
  {
   "property": "C08",
   "status": "proved",
   "theorems": [
    "Faucet.FlowReorder.reorder_staged",
    "Faucet.FlowReorder.reorder_barriers",
    "Faucet.FlowReorder.reorder_no_invention",
    "Faucet.FlowReorder.reorder_nothing_lost",
    "Faucet.FlowReorder.reorder_total"
   ],
   "note": "Order, barriers, nothing invented, nothing lost."
  },
  {
   "property": "C09",
   "status": "proved",
   "theorems": [
    "Faucet.FlowReorder.reorder_idempotent"
   ],
   "note": ""
  },
  {
   "property": "C10",
   "status": "proved",
   "theorems": [
    "Faucet.Flood.port_flood_delivers",
    "Faucet.Flood.flood_table",
    "Faucet.Flood.vlan_flood_safe"
   ],
   "note": "Actions for an ingress port, and the installed flood table on a switch: no copy back unless hairpin, then exactly one. Group tables are not covered by flood_table."
  },
  {
   "property": "C11",
   "status": "proved",
   "theorems": [
    "Faucet.Flood.port_flood_delivers",
    "Faucet.Flood.port_flood_once",
    "Faucet.Flood.flood_table",
    "Faucet.Flood.flood_mirror_twice_defect"
   ],
   "note": "Exactly one rightly tagged copy per member due one, none for the others; at most one copy per member always. Without per-port rules a mirror port (not a member) can get two copies: flood_mirror_twice_defect."
  },
  {
   "property": "C12",
   "status": "proved",
   "theorems": [
    "Faucet.Flood.port_flood_delivers",
    "Faucet.Flood.flood_table",
    "Faucet.Flood.flood_miss",
    "Faucet.Flood.broadcast_delivered",
    "Faucet.Flood.unicast_delivered",
    "Faucet.Flood.quiet_port_cannot_flood_defect",
    "Faucet.Flood.flood_no_external_defect",
    "Faucet.Flood.group_update_loses_flooding_defect"
   ],
   "note": "Copies only to members and their mirrors, and every member due a copy gets it, at function level and on the switch after start (no group tables). Defects: with group tables a port-down update loses the VLAN's flood rules; with per-port rules a port with unicast_flood off cannot originate an unknown-unicast flood."
  },
  {
   "property": "C13",
   "status": "partial",
   "theorems": [
    "Faucet.Flood.port_flood_delivers",
    "Faucet.Flood.Delivered.one_lag_member",
    "Faucet.Flood.Delivered.one_external",
    "Faucet.Flood.flood_table",
    "Faucet.Flood.flood_back_into_lag_defect",
    "Faucet.Flood.flood_external_to_external_defect"
   ],
   "note": "Holds for the per-port actions, on the switch with per-port rules, and without them whenever some member is due a copy. False otherwise: when nobody is due a copy the VLAN rule applies and a flood goes back into its own bundle, or from external to external port."
  },
  {
   "property": "C14",
   "status": "partial",
   "theorems": [
    "Faucet.Acl.port_acl_decides",
    "Faucet.Acl.vlan_acl_in_decides",
    "Faucet.Acl.vlan_acl_out_decides",
    "Faucet.Acl.dp_acl_decides",
    "Faucet.Acl.first_rule_decides",
    "Faucet.Acl.acl_removal_defect"
   ],
   "note": "Proved over every history of port up/down/ACL change and VLAN add/replace/delete messages; without exact_match ACLs (defect proved), failover groups, 802.1X flows and tunnels."
  },
  {
   "property": "C15",
   "status": "partial",
   "theorems": [
    "Faucet.Acl.passes_iff_allow",
    "Faucet.Acl.drops_without_allow",
    "Faucet.Acl.run_rule",
    "Faucet.Acl.rule_confined_port",
    "Faucet.Acl.rule_confined_vlan_partial",
    "Faucet.Acl.vlan_escape_defect",
    "Faucet.Acl.ct_dropped_defect"
   ],
   "note": "The VLAN confinement is false of the code when a rule matches vlan_vid or vlan_vid/mask itself (vlan_escape_defect); proved when it does not. Conntrack actions excluded (ct_dropped_defect)."
  },
  {
   "property": "C16",
   "status": "proved",
   "theorems": [
    "Faucet.Route.longest_prefix"
   ],
   "note": ""
  },
  {
   "property": "C17",
   "status": "partial",
   "theorems": [
    "Faucet.Route.gateway_index_partial",
    "Faucet.Route.gateway_moved_defect",
    "Faucet.Route.gateway_kept_defect"
   ],
   "note": "The index agrees with the route table in every history in which no routed prefix is given another gateway; with such a change it does not (defect)."
  },
  {
   "property": "C18",
   "status": "proved",
   "theorems": [
    "Faucet.Route.retry_backoff",
    "Faucet.Route.backoff_grows",
    "Faucet.Route.fresh_and_dead"
   ],
   "note": ""
  },
  {
   "property": "C19",
   "status": "proved",
   "theorems": [
    "Faucet.Route.resolve_bounded",
    "Faucet.Route.resolve_fewest_first"
   ],
   "note": ""
  },
  {
   "property": "C20",
   "status": "partial",
   "theorems": [
    "Faucet.Route.gateway_routes_partial",
    "Faucet.Route.no_stale_routes_partial",
    "Faucet.Route.relearn_quiet",
    "Faucet.Route.gateway_down_defect",
    "Faucet.Route.gateway_changed_defect",
    "Faucet.Route.gateway_stolen_defect",
    "Faucet.Route.reload_keeps_route_defect"
   ],
   "note": "For every history in which no routed prefix is given another gateway, no prefix is routed in two VLANs that share FIB entries, and no host is sought proactively whose MAC is known without a route; outside these the claim fails (defects). A gateway's own routes are not removed when its port goes down (defect). A reload, also of the same configuration, makes FAUCET forget gateways whose routes stay in the switch (reload_keeps_route_defect)."
  },
  {
   "property": "C21",
   "status": "proved",
   "theorems": [
    "Faucet.Lacp.lacp_forwards_iff",
    "Faucet.Lacp.pdu_decides_forwarding",
    "Faucet.Lacp.collecting_only_when_selected",
    "Faucet.Lacp.calm_of_no_reload",
    "Faucet.Lacp.stale_up_defect",
    "Faucet.Lacp.reload_leaves_drop_defect",
    "Faucet.Lacp.reload_readds_rules_defect",
    "Faucet.Lacp.reconnect_defect"
   ],
   "note": "For any history of connections, disconnections, link changes, PDUs and expiry checks, and of warm and cold reloads too, except reloads while disconnected that add a port last reported up (stale_up_defect). A connection while connected is excluded (reconnect_defect). Ports that leave a bundle at a warm reload are not covered (reload_*_defect)."
  },
  {
   "property": "C22",
   "status": "proved",
   "theorems": [
    "Faucet.Lacp.up_means_synced",
    "Faucet.Lacp.silent_member_expires",
    "Faucet.Lacp.live_member_kept"
   ],
   "note": "For any history, including warm and cold reloads (with the exception of C21)."
  },
  {
   "property": "C23",
   "status": "partial",
   "theorems": [
    "Faucet.Lacp.nominated_has_most",
    "Faucet.Lacp.nominated_has_member",
    "Faucet.Lacp.strict_most_nominated",
    "Faucet.Lacp.root_wins_tie",
    "Faucet.Lacp.switches_agree",
    "Faucet.Lacp.at_most_one_nominated",
    "Faucet.Lacp.tie_nominates_nobody_defect",
    "Faucet.Lacp.nominated_without_member_defect",
    "Faucet.Lacp.lone_switch_not_nominated_defect"
   ],
   "note": "Missing, because false of the code: on a tie without the root the lowest id is not nominated, nobody is (tie_nominates_nobody_defect)."
  },
  {
   "property": "C24",
   "status": "proved",
   "theorems": [
    "Faucet.Stack.root_always_candidate",
    "Faucet.Stack.healthy_root_kept",
    "Faucet.Stack.root_change",
    "Faucet.Stack.unhealthy_root_replaced",
    "Faucet.Stack.root_order_independent",
    "Faucet.Stack.new_root_best",
    "Faucet.Stack.configured_root",
    "Faucet.Stack.Ex.no_lacp_ranked_last_defect"
   ],
   "note": "Any candidates, priorities, link counts and clock values; the defect theorem is about ranking only."
  },
  {
   "property": "C25",
   "status": "partial",
   "theorems": [
    "Faucet.Stack.next_hops_arrive",
    "Faucet.Stack.unreachable_no_port",
    "Faucet.Stack.relative_hops_arrive",
    "Faucet.Stack.Ex.gone_link_used_defect"
   ],
   "note": "Any multigraph, any source and destination, with switches that share the graph and whose running links are those of the graph; gone_link_used_defect shows a port outside the graph can be used otherwise."
  },
  {
   "property": "C26",
   "status": "partial",
   "theorems": [
    "Faucet.Stack.one_uplink",
    "Faucet.Stack.ends_agree",
    "Faucet.Stack.no_cycle",
    "Faucet.Stack.carrying_spans",
    "Faucet.Stack.down_link_pruned",
    "Faucet.Stack.settled_of_history",
    "Faucet.Stack.graph_of_history",
    "Faucet.Stack.quiet_change_refreshes",
    "Faucet.Stack.Reached.inv",
    "Faucet.Stack.Ex.one_way_link_defect",
    "Faucet.Stack.Ex.stale_view_defect",
    "Faucet.Stack.Ex.reload_view_defect",
    "Faucet.Stack.Ex.unpruned_link_defect"
   ],
   "note": "Any topology, once both ends of each link agree and every switch has recalculated (settled); histories are shown to lead there. False in between (defect theorems)."
  },
  {
   "property": "C27",
   "status": "partial",
   "theorems": [
    "Faucet.Stack.link_up_iff",
    "Faucet.Stack.loss_takes_down",
    "Faucet.Stack.miscabling_takes_down",
    "Faucet.Stack.admin_down_stays",
    "Faucet.Stack.beacon_brings_up",
    "Faucet.Stack.Ex.admin_down_check_defect",
    "Faucet.Stack.Ex.unknown_state_defect",
    "Faucet.Stack.Ex.system_name_defect"
   ],
   "note": "Every history in which no handler raises; the defect theorems give the LLDP packets and states on which one does."
  },
  {
   "property": "C28",
   "status": "partial",
   "theorems": [
    "Faucet.Stack.broadcast_once",
    "Faucet.Stack.settled_of_history",
    "Faucet.Stack.Ex.stale_view_defect",
    "Faucet.Stack.Ex.one_way_link_defect"
   ],
   "note": "Every settled stack, either strategy, any ingress; false while switches' views of the topology differ (defect theorems)."
  },
  {
   "property": "C29",
   "status": "partial",
   "theorems": [
    "Faucet.Reload.change_noticed",
    "Faucet.Reload.same_or_description",
    "Faucet.Reload.same_as_itself",
    "Faucet.Reload.changes_exact",
    "Faucet.Reload.self_no_changes",
    "Faucet.Reload.deleted_added_exact",
    "Faucet.Reload.changed_ports_exact",
    "Faucet.Reload.acl_ports_exact",
    "Faucet.Reload.identical_reload_silent",
    "Faucet.Reload.Ex.float_change_missed_defect",
    "Faucet.Reload.Ex.set_order_counts_defect",
    "Faucet.Reload.Ex.dp_acl_change_missed_defect",
    "Faucet.Reload.Ex.vlan_out_acl_change_missed_defect",
    "Faucet.Reload.Ex.same_config_restarts_defect",
    "Faucet.Reload.Ex.unstack_raises_defect"
   ],
   "note": "Comparison of sections and of configurations, and silence of an identical reload, for every configuration. Missing because the code does not do it: float settings, contents of dp_acls and acls_out, order of sets and a stack graph with a link down are proved to be misreported."
  },
  {
   "property": "C30",
   "status": "partial",
   "theorems": [
    "Faucet.Reload.reload_matches_cold_start_partial",
    "Faucet.Reload.history_matches_cold_start_partial",
    "Faucet.Reload.unchanged_port_untouched",
    "Faucet.Reload.unchanged_vlan_untouched",
    "Faucet.Reload.changed_ports_exact",
    "Faucet.Reload.acl_ports_exact",
    "Faucet.Reload.deleted_added_exact",
    "Faucet.Reload.Ex.new_mirror_keeps_sending_defect",
    "Faucet.Reload.Ex.externals_not_updated_defect",
    "Faucet.Reload.Ex.copro_new_port_defect",
    "Faucet.Reload.Ex.down_port_acl_defect"
   ],
   "note": "After any history of port events and reloads the rules are those of a cold start, for standalone switches and provided what the comparison overlooks (Quiet) did not change; each part of Quiet is shown necessary by a defect. Rules are represented by the settings they are generated from; stack, LACP and 802.1X ports take other paths."
  },
  {
   "property": "C31",
   "status": "partial",
   "theorems": [
    "Faucet.Config.running_config_was_valid",
    "Faucet.Config.invalid_config_not_applied",
    "Faucet.Config.invalid_config_survives",
    "Faucet.Config.reload_follows_disk_partial",
    "Faucet.Config.missing_config_error_cleared_defect",
    "Faucet.Config.include_not_mapping_raises_defect"
   ],
   "note": "Every history of edits, reloads, polls and connections. Missing: configurations in which one file was both loaded and skipped (deleted_file_missed_defect), and the error flag is cleared if the file is missing (missing_config_error_cleared_defect); an included file that is not a mapping raises."
  },
  {
   "property": "C32",
   "status": "partial",
   "theorems": [
    "Faucet.Config.include_terminates",
    "Faucet.Config.failed_include_changes_nothing",
    "Faucet.Config.settings_of_loaded_files",
    "Faucet.Config.shared_missing_optional_defect",
    "Faucet.Config.diamond_include_rejected_defect",
    "Faucet.Config.failed_include_content_kept_defect",
    "Faucet.Config.optional_self_include_defect"
   ],
   "note": "Termination and all-or-nothing for every include graph; skipped files contribute no settings. 'As if absent' is false when two files name the same missing optional file: shared_missing_optional_defect."
  },
  {
   "property": "C33",
   "status": "partial",
   "theorems": [
    "Faucet.Config.poll_loads_iff",
    "Faucet.Config.unchanged_files_same_config",
    "Faucet.Config.untouched_never_reloaded_partial",
    "Faucet.Config.deleted_file_missed_defect",
    "Faucet.Config.first_poll_misses_change_defect",
    "Faucet.Config.skipped_optional_reloads_forever_defect"
   ],
   "note": "Exact for every poll after the first. Untouched files are never reloaded unless an optional include exists and is invalid, then every poll reloads (skipped_optional_reloads_forever_defect)."
  },
  {
   "property": "C34",
   "status": "partial",
   "theorems": [
    "Faucet.Config.finalized_assignment_refused",
    "Faucet.Config.finalized_immutable_partial",
    "Faucet.Config.finalized_dyn_assignable",
    "Faucet.Config.finalized_dict_mutable_defect",
    "Faucet.Config.unfinalize_defect"
   ],
   "note": "Assignments are refused in every history; values without dictionaries cannot change at all. Dictionaries can be changed in place and the mark can be reset: the defects."
  },
  {
   "property": "C35",
   "status": "partial",
   "theorems": [
    "Faucet.Ranges.exactly_listed_partial",
    "Faucet.Ranges.listed_configured",
    "Faucet.Ranges.rejected_iff",
    "Faucet.Ranges.ports_exact",
    "Faucet.Ranges.interface_overrides",
    "Faucet.Ranges.interface_alone",
    "Faucet.Ranges.range_port_settings",
    "Faucet.Ranges.ranges_rejected_iff",
    "Faucet.Ranges.Ex.nested_range_defect",
    "Faucet.Ranges.Ex.duplicate_number_defect",
    "Faucet.Ranges.Ex.overlap_within_defect"
   ],
   "note": "For every well-formed expression and interface map, provided no range is written within another (5-9 in 35-91); without that extra ports are configured, which is proved. Ranges of one expression may overlap, and of two interfaces with the same number one is dropped silently, both proved."
  },
  {
   "property": "C36",
   "status": "partial",
   "theorems": [
    "Faucet.Ports.up_is_last_report",
    "Faucet.Ports.forwarding_follows_report_partial",
    "Faucet.Ports.ignoring_port_keeps_forwarding",
    "Faucet.Ports.phys_portStatus",
    "Faucet.Ports.connect_ports",
    "Faucet.Ports.disconnect_ports",
    "Faucet.Ports.added_down_port_forwards_defect",
    "Faucet.Ports.blocked_report_toggles_defect",
    "Faucet.Ports.deleted_port_stays_up_defect"
   ],
   "note": "The set of up ports follows the last report in every history, with no exception. Forwarding follows it when added ports are up, deleted ports down and none is blocked; else see the defects."
  },
  {
   "property": "C37",
   "status": "partial",
   "theorems": [
    "Faucet.Ports.desc_up_partial",
    "Faucet.Ports.desc_changes_forwarding",
    "Faucet.Ports.desc_unchanged_untouched",
    "Faucet.Ports.local_port_taken_down_defect",
    "Faucet.Ports.missing_unknown_port_defect"
   ],
   "note": "Every state, reply and walking order of the sets. False for the switch's local port and for unconfigured ports missing from the reply: the defects."
  },
  {
   "property": "C38",
   "status": "partial",
   "theorems": [
    "Faucet.Service.rate_limit_whole_seconds_partial",
    "Faucet.Service.rate_limit_fractional_defect"
   ],
   "note": "Exact for time stamps in whole seconds. The controller passes fractional time stamps, for which the property is false: rate_limit_fractional_defect."
  },
  {
   "property": "C39",
   "status": "partial",
   "theorems": [
    "Faucet.Ports.packet_in_changes_state_only_if",
    "Faucet.Ports.packet_in_meta",
    "Faucet.Ports.admissible_packet_in_handled",
    "Faucet.Ports.vid_zero_defect"
   ],
   "note": "Every packet-in and every handler. VID 0 is accepted when global routing is off although VLAN 0 is not configured: vid_zero_defect."
  },
  {
   "property": "C40",
   "status": "proved",
   "theorems": [
    "Faucet.Config.config_applied_fraction",
    "Faucet.Config.applied_means_sent",
    "Faucet.Config.load_resets_applied",
    "Faucet.Config.connect_applies"
   ],
   "note": "Every history of edits, reloads, polls, connections and disconnections."
  },
  {
   "property": "C41",
   "status": "proved",
   "theorems": [
    "Faucet.Encoding.vid_survives_wire",
    "Faucet.Encoding.vid_in_mac_roundtrip",
    "Faucet.Encoding.vid_in_mac_injective"
   ],
   "note": "String level for every MAC string and number; byte level for every MAC and 16-bit VID."
  },
  {
   "property": "C42",
   "status": "partial",
   "theorems": [
    "Faucet.Encoding.dot1x_identity_injective",
    "Faucet.Encoding.dot1x_identity_recovers",
    "Faucet.Encoding.dot1x_identity_wide_port_defect"
   ],
   "note": "Uniqueness as strings for all numbers; recovery and uniqueness as addresses for index<256 and port<65536. Outside that range false: witness given."
  },
  {
   "property": "C43",
   "status": "partial",
   "theorems": [
    "Faucet.Encoding.egress_metadata_identifies_partial",
    "Faucet.Encoding.egress_metadata_within_mask",
    "Faucet.Encoding.egress_metadata_wide_port_defect"
   ],
   "note": "Holds for ports below 4096; proved false for wider port numbers."
  },
  {
   "property": "C44",
   "status": "proved",
   "theorems": [
    "Faucet.Encoding.vid_present_roundtrip",
    "Faucet.Encoding.vid_present_injective"
   ],
   "note": ""
  },
  {
   "property": "C45",
   "status": "partial",
   "theorems": [
    "Faucet.Encoding.fragments_rejected_partial",
    "Faucet.Encoding.complete_accepted",
    "Faucet.Encoding.ipv4_parseable_iff",
    "Faucet.Encoding.short_header_raises",
    "Faucet.Encoding.fragment_offset_defect"
   ],
   "note": "Exact characterisation proved; the property is false for fragment offset 4096."
  },
  {
   "property": "C46",
   "status": "partial",
   "theorems": [
    "Faucet.Route.bgp_follows_partial",
    "Faucet.Route.no_stale_routes_partial",
    "Faucet.Route.bgp_other_vlan_defect",
    "Faucet.Route.bgp_no_nexthop_defect",
    "Faucet.Route.gateway_changed_defect",
    "Faucet.Route.bgp_removes_static_defect",
    "Faucet.Route.bgp_removed_speaker_defect"
   ],
   "note": "For network prefixes without a static route and next hops in the speaker's own VLAN, also across reloads that keep the networks of the VLAN and its router; false for a next hop in another VLAN of the router (defect), for prefixes with a static route (bgp_removes_static_defect), and a speaker that a reload removes goes on changing routes (bgp_removed_speaker_defect)."
  },
  {
   "property": "C47",
   "status": "partial",
   "theorems": [
    "Faucet.Dot1x.logged_out_rules",
    "Faucet.Dot1x.logged_out_dropped",
    "Faucet.Dot1x.no_rule_for_client",
    "Faucet.Dot1x.Ex.lag_member_defect"
   ],
   "note": "Proved for every history of one switch's port, login, logoff and failure events and reloads that find its configuration unchanged, for plain ports, ports with auth/noauth ACLs and ports with RADIUS-named ACLs. Missing: LAG members and output-only ports, where it is false (lag_member_defect); reloads that change the switch between the events are not modelled."
  },
  {
   "property": "C48",
   "status": "partial",
   "theorems": [
    "Faucet.Tunnel.tunnel_delivers",
    "Faucet.Tunnel.tunnel_delivers_exits",
    "Faucet.Tunnel.tunnel_delivers_dp",
    "Faucet.Tunnel.tunnel_and_allow",
    "Faucet.Tunnel.tunnel_single",
    "Faucet.Tunnel.tunnel_back",
    "Faucet.Tunnel.update_installs",
    "Faucet.Tunnel.update_installs_back",
    "Faucet.Tunnel.update_installs_source",
    "Faucet.Tunnel.Ex.reverse_two_sources_defect",
    "Faucet.Tunnel.Ex.stale_rule_defect",
    "Faucet.Tunnel.Ex.inject_defect",
    "Faucet.Tunnel.Ex.single_maintain_allow_defect",
    "Faucet.Tunnel.Ex.two_gotos_defect",
    "Faucet.Tunnel.Ex.source_rules_defect",
    "Faucet.Tunnel.Ex.source_priority_defect"
   ],
   "note": "Delivery over any number of switches for any packet, in both directions, and installation of the rules by the controller, for a settled stack; the defect theorems show where the code breaks the claim: several bi-directional sources share one way back, stale rules after a lost path, the tag of a kept encapsulation on the allowed packet."
  },
  {
   "property": "C49",
   "status": "proved",
   "theorems": [
    "Faucet.Pipeline.processing_terminates",
    "Faucet.Pipeline.sent_forward",
    "Faucet.Pipeline.site_forward",
    "Faucet.Pipeline.id_lt",
    "Faucet.Pipeline.id_unique",
    "Faucet.Pipeline.ids_consecutive",
    "Faucet.Pipeline.first_table",
    "Faucet.Pipeline.site_announced",
    "Faucet.Pipeline.announced_exist",
    "Faucet.Pipeline.default_catches",
    "Faucet.Pipeline.way_bounded",
    "Faucet.Pipeline.no_infinite_way",
    "Faucet.Pipeline.terminates",
    "Faucet.Pipeline.execAll_forward",
    "Faucet.Pipeline.Ex.static_id_collision_defect",
    "Faucet.Pipeline.Ex.hairpin_unannounced_defect"
   ],
   "note": "For every set of optional tables, with static or consecutive ids: all goto sites go to existing tables with larger ids; for every history of messages of the modelled managers every packet is processed to the end in strictly increasing tables. Rules that are modelled only as goto sites (select_packets, coprocessor, tunnels) are covered by site_forward. Connection tracking can recirculate to a table the user names and is outside the datapath model. Findings: static ids of copro and vlan_acl collide; hairpin with egress pipeline uses an unannounced next table."
  },
  {
   "property": "C50",
   "status": "proved",
   "theorems": [
    "Faucet.Actions.trim_preserves_output",
    "Faucet.Actions.trimmed_rule_same_output",
    "Faucet.Actions.trimmed_actions_same_emits",
    "Faucet.Actions.trim_is_tight"
   ],
   "note": ""
  },
  {
   "property": "C51",
   "status": "proved",
   "theorems": [
    "Faucet.Service.events_in_order",
    "Faucet.Service.events_newest_kept",
    "Faucet.Service.only_oldest_events_lost",
    "Faucet.Service.event_lost_on_disconnect_defect"
   ],
   "note": "Every interleaving of notify, refused notify and reads. Loss is only by overflow unless a client disconnects while an event is being sent: event_lost_on_disconnect_defect."
  },
  {
   "property": "C52",
   "status": "proved",
   "theorems": [
    "Faucet.Service.beacon_round",
    "Faucet.Service.beacons_spaced",
    "Faucet.Service.beacon_rounds_spaced",
    "Faucet.Service.beacon_ttl_fits"
   ],
   "note": "Per round for every port state and every permutation; over time for every history of rounds and port changes."
  },
  {
   "property": "C53",
   "status": "proved",
   "theorems": [
    "Faucet.Flood.longer_mask_higher_priority",
    "Faucet.Flood.reserved_dropped",
    "Faucet.Flood.most_specific_row",
    "Faucet.Flood.row_priority_iff"
   ],
   "note": "Priority grows with mask length; on the switch the rule picked comes from the matching row of highest priority and reserved destinations are dropped."
  },
  {
   "property": "C54",
   "status": "proved",
   "theorems": [
    "Faucet.Actions.dedupe_exact",
    "Faucet.Actions.cleanup_exact",
    "Faucet.Actions.cleanup_keeps_first_copies",
    "Faucet.Actions.buckets_same_emits"
   ],
   "note": ""
  },
  {
   "property": "C55",
   "status": "partial",
   "theorems": [
    "Faucet.Learn.dst_rules_follow_hosts_partial",
    "Faucet.Learn.src_rules_follow_hosts_partial",
    "Faucet.Learn.loop_protect_stale_defect"
   ],
   "note": "False with loop protection (defect theorem); proved without, sources for the default switch manager only."
  },
  {
   "property": "C56",
   "status": "partial",
   "theorems": [
    "Faucet.Learn.port_down_silences",
    "Faucet.Learn.port_removed_forgets",
    "Faucet.Learn.accepted_installs_rules",
    "Faucet.Learn.port_down_keeps_limit_defect",
    "Faucet.Learn.egress_port_down_defect",
    "Faucet.Learn.hairpin_port_down_defect"
   ],
   "note": "No rule that outputs to the port by number is left, and hosts are forgotten if the port is removed; egress-pipeline and hairpin rules survive (defect theorems), and hosts of a port that is only down still count against its limits (defect theorem)."
  },
  {
   "property": "C57",
   "status": "partial",
   "theorems": [
    "Faucet.Acl.run_rule",
    "Faucet.Acl.port_acl_decides",
    "Faucet.Acl.vlan_acl_in_decides"
   ],
   "note": "Failover groups are covered by C76, tunnels by the properties on tunnels; conntrack actions are not covered."
  },
  {
   "property": "C58",
   "status": "partial",
   "theorems": [
    "Faucet.Route.router_address_partial",
    "Faucet.Route.vip_spoofed_defect",
    "Faucet.Route.vip_announced_defect",
    "Faucet.Route.second_vip_blackholed_defect"
   ],
   "note": "If no host uses an address of the router as its own and no host route to one is announced or sought."
  },
  {
   "property": "C59",
   "status": "partial",
   "theorems": [
    "Faucet.Dot1x.logged_in_admitted",
    "Faucet.Dot1x.eapol_redirected",
    "Faucet.Dot1x.eapol_answered",
    "Faucet.Dot1x.Ex.eapol_lost_defect",
    "Faucet.Dot1x.Ex.login_evicts_defect",
    "Faucet.Dot1x.Ex.failure_blocks_defect"
   ],
   "note": "Proved for plain ports (admission) and for every port whose noauth ACL has no rule that covers EAPOL (redirection), also across reloads that find the switch unchanged; false with such a rule (eapol_lost_defect). Reloads that change the switch between the events are not modelled."
  },
  {
   "property": "C60",
   "status": "partial",
   "theorems": [
    "Faucet.Dot1x.dynamic_vlan",
    "Faucet.Dot1x.dynamic_vlan_since_reload",
    "Faucet.Dot1x.Ex.vlan_lost_defect",
    "Faucet.Dot1x.Ex.vlan_outlives_session_defect"
   ],
   "note": "The VLAN state is proved exactly; the flows sent on a change are a parameter. As seen by one client it is false: any other client's failure resets it (vlan_lost_defect). A reload, even one that changes nothing, makes FAUCET forget it while the switch keeps it (vlan_outlives_session_defect)."
  },
  {
   "property": "C61",
   "status": "partial",
   "theorems": [
    "Faucet.Tunnel.vids_agree",
    "Faucet.Tunnel.vids_apart",
    "Faucet.Tunnel.ids_not_user",
    "Faucet.Tunnel.firstUnused_spec",
    "Faucet.Tunnel.Ex.vids_order_defect",
    "Faucet.Tunnel.Ex.same_id_defect"
   ],
   "note": "Proved for ACLs with one destination each (no user VLAN is ever taken: for all); with two destinations in an ACL the ids depend on the order, shown by vids_order_defect."
  },
  {
   "property": "C62",
   "status": "partial",
   "theorems": [
    "Faucet.L2.vlan_isolation_partial",
    "Faucet.L2.unknown_port_silent",
    "Faucet.L2.hosts_on_members_partial",
    "Faucet.L2.known_was_heard",
    "Faucet.L2.Ex.tagged_lacp_breaks_isolation_defect"
   ],
   "note": "Proved for standalone switches (no stack, ACLs, routing, 802.1x, tunnels, coprocessors or configuration changes) for every history in which no tagged LACP or LLDP frame is punted to the controller; with such frames the property is false (tagged_lacp_breaks_isolation_defect)."
  },
  {
   "property": "C63",
   "status": "partial",
   "theorems": [
    "Faucet.L2.delivery_partial",
    "Faucet.L2.known_host_gets_partial",
    "Faucet.L2.unknown_is_flooded_partial",
    "Faucet.L2.no_return_partial",
    "Faucet.L2.new_source_told_partial",
    "Faucet.L2.unlimited_never_bans"
   ],
   "note": "Proved for standalone switches with the features of Cfg.Basic (mirrors, both flooding schemes, the classification table and host limits, but no egress pipeline, group table, hairpin, permanent learning, loop protection, restricted broadcast or LACP), while no source is banned because of a host limit; other features and configuration changes are missing."
  },
  {
   "property": "C64",
   "status": "partial",
   "theorems": [
    "Faucet.L2.isolation_across_reloads_partial",
    "Faucet.L2.removed_port_silent_partial",
    "Faucet.L2.delivery_across_reloads_partial",
    "Faucet.L2.known_host_across_reloads_partial",
    "Faucet.L2.unknown_is_flooded_across_reloads_partial",
    "Faucet.L2.new_source_across_reloads_partial",
    "Faucet.L2.hosts_across_reloads_partial",
    "Faucet.L2.reload_never_raises_partial",
    "Faucet.L2.kept_hosts_partial",
    "Faucet.L2.kept_host_rules_partial",
    "Faucet.L2.unlimited_across_reloads_never_bans_partial",
    "Faucet.L2.same_config_is_free",
    "Faucet.L2.Ex.lag_port_keeps_vlan_defect",
    "Faucet.L2.Ex.late_packet_defect",
    "Faucet.L2.Ex.added_port_dead_defect",
    "Faucet.L2.Ex.old_mirror_gets_floods_defect",
    "Faucet.L2.Ex.old_gateway_dropped_defect",
    "Faucet.L2.Ex.forgotten_host_defect"
   ],
   "note": "Isolation, delivery, host table and host rules for runs with any number of warm reloads (RunR), for switches of Cfg.Basic and new configurations of Reloadable. False in general: LACP ports keep VLANs they left, late packet-ins, added ports that were up, mirrors of ports that are down, changed gateway addresses; hosts of changed VLANs are forgotten while their rules stay."
  },
  {
   "property": "C65",
   "status": "partial",
   "theorems": [
    "Faucet.Stack.stays_rightly",
    "Faucet.Stack.hears_knows",
    "Faucet.Stack.own_port_learned",
    "Faucet.Stack.reflection_ignored",
    "Faucet.Stack.learned_from_stack",
    "Faucet.Stack.unicast_once_partial",
    "Faucet.Stack.unicast_in_stack_partial",
    "Faucet.Stack.known_in_stack_partial",
    "Faucet.Stack.Ex.gap_defect",
    "Faucet.Stack.Ex.moved_host_defect",
    "Faucet.Stack.Ex.reflected_copy_moves_host_defect",
    "Faucet.Stack.Ex.parallel_unknown_defect"
   ],
   "note": "Every entry is right after every history of a host that stays. Delivery exactly once for any topology: without parallel links whenever the switches that know the host form an unbroken line from the host towards the root, in particular when none or all know it; with parallel links or shortest-path learning when all know it. False with a gap, with parallel links while unknown, and after moves (defects)."
  },
  {
   "property": "C66",
   "status": "partial",
   "theorems": [
    "Faucet.Route.answers_for_itself",
    "Faucet.Route.silent_unless_asked",
    "Faucet.Route.answers_unanswered_partial",
    "Faucet.Route.arp_answered_partial",
    "Faucet.Route.nd_answered_partial",
    "Faucet.Route.ping_answered_partial",
    "Faucet.Route.ping6_answered_partial",
    "Faucet.Route.expired_reported_partial",
    "Faucet.Route.expired6_reported_partial",
    "Faucet.Route.solicitation_answered_partial",
    "Faucet.Route.answers_memoryless",
    "Faucet.Route.advertised_once",
    "Faucet.Route.advertised_right",
    "Faucet.Route.asker_known",
    "Faucet.Route.Ex.ping6_cut_defect",
    "Faucet.Route.Ex.large_ping_unanswered_defect",
    "Faucet.Route.Ex.large_expired_unreported_defect",
    "Faucet.Route.Ex.probe_unanswered_defect",
    "Faucet.Route.Ex.second_address_silent_defect",
    "Faucet.Route.Ex.error_about_error_defect",
    "Faucet.Route.Ex.options_quote_defect",
    "Faucet.Route.Ex.far_address_silent_defect"
   ],
   "note": "Proved for every packet, state and set of router addresses: at most one reply, to the sender, in the router's own name; silence unless asked; exactly one right answer where the router's networks do not overlap and the packet is short enough to be parsed whole. False of the code otherwise, with witnesses: long IPv6 pings come back cut, longer pings and long expired packets are ignored, address probes are ignored, of two addresses in one network one is silent, error messages are reported with error messages."
  },
  {
   "property": "C67",
   "status": "partial",
   "theorems": [
    "Faucet.Gauge.polled_once",
    "Faucet.Gauge.asks_what_is_wanted_partial",
    "Faucet.Gauge.next_request",
    "Faucet.Gauge.first_request",
    "Faucet.Gauge.reply_recorded",
    "Faucet.Gauge.late_reply_dropped_partial",
    "Faucet.Gauge.status_right",
    "Faucet.Gauge.counts_exported_partial",
    "Faucet.Gauge.second_reply_exported",
    "Faucet.Gauge.counts_were_reported",
    "Faucet.Gauge.other_tables_kept",
    "Faucet.Gauge.dump_fresh",
    "Faucet.Gauge.dumps_all_kept",
    "Faucet.Gauge.Ex.meters_never_asked_defect",
    "Faucet.Gauge.Ex.meters_no_response_defect",
    "Faucet.Gauge.Ex.shorter_interval_ignored_defect",
    "Faucet.Gauge.Ex.late_reply_recorded_defect",
    "Faucet.Gauge.Ex.zero_interval_defect",
    "Faucet.Gauge.Ex.earlier_flows_lost_defect",
    "Faucet.Gauge.Ex.other_switches_lost_defect",
    "Faucet.Gauge.Ex.gone_flow_exported_defect",
    "Faucet.Gauge.Ex.unknown_table_fatal_defect"
   ],
   "note": "Polling (one poller, pace, no-response, status, recording while connected) is proved for all histories. Partial because parts are false of the code: meters exported to Prometheus are never asked for, watchers that do not poll record replies of disconnected switches, an interval of 0 kills the poller silently, and a new tag makes the exporter forget what it was told before (proved as defects); flow counts are complete from the second reply on."
  },
  {
   "property": "C68",
   "status": "partial",
   "theorems": [
    "Faucet.Valid.switches_as_configured",
    "Faucet.Valid.ports_as_configured",
    "Faucet.Valid.vlan_exists_iff",
    "Faucet.Valid.vlans_as_configured",
    "Faucet.Valid.vlan_members",
    "Faucet.Valid.mirrors_as_configured",
    "Faucet.Valid.mirror_references_resolve",
    "Faucet.Valid.output_only_iff",
    "Faucet.Valid.interface_numbers",
    "Faucet.Valid.native_not_tagged",
    "Faucet.Valid.special_no_vlans_partial",
    "Faucet.Valid.accepted_wf_partial",
    "Faucet.Valid.accepted_isolation_partial",
    "Faucet.Valid.routers_as_configured",
    "Faucet.Valid.routers_used",
    "Faucet.Valid.router_vips_apart_partial",
    "Faucet.Valid.accepted_routing_partial",
    "Faucet.Valid.stack_references_resolve",
    "Faucet.Valid.accepted_cabling_partial",
    "Faucet.Valid.stack_has_root",
    "Faucet.Valid.dpids_distinct",
    "Faucet.Valid.accepted_iff",
    "Faucet.Valid.Ex.mirror_in_vlan_defect",
    "Faucet.Valid.Ex.one_sided_link_defect",
    "Faucet.Valid.Ex.self_link_defect",
    "Faucet.Valid.Ex.same_vip_twice_defect"
   ],
   "note": "What is set up is proved to be what the sections say, and acceptance is characterised exactly for configurations without stacking, routers and ACLs. Partial because the code accepts configurations that break parts of the claim: mirrors in a VLAN via a falsy native VLAN, equal or link-local VIPs, duplicate port names that hide one-sided links, links of a switch to itself. The theorems exclude exactly these and each has a defect theorem."
  },
  {
   "property": "C69",
   "status": "partial",
   "theorems": [
    "Faucet.Routed.routed_delivery_partial",
    "Faucet.Routed.next_hop_gets_partial",
    "Faucet.Routed.routed_only_partial",
    "Faucet.Routed.routed_isolation_partial",
    "Faucet.Routed.unrouted_delivery_partial",
    "Faucet.Routed.unrouted_source_told_partial",
    "Faucet.Routed.unlimited_no_ban",
    "Faucet.Routed.arp_for_router_partial",
    "Faucet.Routed.arp_switched_partial",
    "Faucet.Routed.to_faucet_partial",
    "Faucet.Routed.no_route_drops_partial",
    "Faucet.Routed.Ex.routed_lost_defect",
    "Faucet.Routed.Ex.same_trunk_not_routed_defect",
    "Faucet.Routed.Ex.arp_not_learned_defect",
    "Faucet.Routed.Ex.arp_other_vlan_defect",
    "Faucet.Routed.Ex.ping_needs_proactive_defect",
    "Faucet.Routed.Ex.over_limit_routed_defect"
   ],
   "note": "Standalone switch, IPv4, no global routing, configurations of C63 and routing histories of C20. Not true in full: with flooding per port, packets for a next hop that the switch has no rule for are lost unless they come in through a port of its VLAN (routed_lost_defect); between two VLANs of one trunk port nothing is routed (same_trunk_not_routed_defect); ARP between hosts does not tell FAUCET of sources (arp_not_learned_defect); ARP for an address of the router in another VLAN is not switched (arp_other_vlan_defect); without proactive learning the router cannot be pinged (ping_needs_proactive_defect); hosts over the limit of a port still reach the router (over_limit_routed_defect). Beyond these, routing is stated for prefixes as in C20 (Route.Tame) and switching for configurations as in C63 (Basic)."
  },
  {
   "property": "C70",
   "status": "partial",
   "theorems": [
    "Faucet.Features.rules_fit_partial",
    "Faucet.Features.rules_accepted_partial",
    "Faucet.Features.reload_fits_partial",
    "Faucet.Features.reload_accepted_partial",
    "Faucet.Features.route_rules_fit_partial",
    "Faucet.Features.route_rules_accepted_partial",
    "Faucet.Features.vip_rules_fit_partial",
    "Faucet.Features.port_acls_fit_partial",
    "Faucet.Features.vlan_acls_fit_partial",
    "Faucet.Features.dp_acls_fit_partial",
    "Faucet.Features.Ex.classification_defect",
    "Faucet.Features.Ex.priority_zero_defect",
    "Faucet.Features.Ex.acl_on_vlan_and_port_defect",
    "Faucet.Features.Ex.exact_acl_defect",
    "Faucet.Features.Ex.exact_acl_fields_defect",
    "Faucet.Features.Ex.many_rules_defect",
    "Faucet.Features.Ex.metadata_unannounced_defect"
   ],
   "note": "Proved for standalone switches with all their events and warm reloads, for the route managers, for the rules of the router's addresses and for ACLs on ports, VLANs and the datapath. The full statement is false of the code: use_classification, priorities configured as 0, an ACL used both on a VLAN and on a port, exact match ACLs and more than 20480 rules in a list lead to exceptions; with an egress pipeline a switch that keeps to the table features refuses rules for hosts. The theorems exclude these. Missing: rules of stacks, coprocessors, tunnels and 802.1x; whether switches accept the rules of ACLs, which is up to what is configured."
  },
  {
   "property": "C71",
   "status": "partial",
   "theorems": [
    "Faucet.AclSw.acls_then_switching_partial",
    "Faucet.AclSw.acls_isolate_partial",
    "Faucet.AclSw.heard_passed_partial",
    "Faucet.AclSw.hosts_passed_partial",
    "Faucet.AclSw.unlimited_never_bans",
    "Faucet.AclSw.shift_id"
   ],
   "note": "Proved for standalone switches with the features of Cfg.Basic and ACLs on ports whose rules have no failover group, tunnel, connection tracking, goto or force_port_vlan and output nothing to the controller, and for packets that, as the ACLs let them pass, are no tagged control frames. ACLs of VLANs and of the whole switch are missing here (C14, C57 cover their rules)."
  },
  {
   "property": "C72",
   "status": "partial",
   "theorems": [
    "Faucet.Multi.every_switch_alone",
    "Faucet.Multi.running_iff_connected",
    "Faucet.Multi.others_untouched",
    "Faucet.Multi.unknown_switch_ignored",
    "Faucet.Multi.not_running_ignored",
    "Faucet.Multi.event_handled",
    "Faucet.Multi.service_reaches_every_switch",
    "Faucet.Multi.service_last_wins",
    "Faucet.Multi.every_switch_expires",
    "Faucet.Multi.sent",
    "Faucet.Multi.no_event_raises",
    "Faucet.Multi.every_switch_isolates_partial",
    "Faucet.Multi.every_switch_delivers_partial"
   ],
   "note": "For standalone switches as in C62 and C63, without reloads: isolation for all of them, delivery for those of Cfg.Basic. The periodic service that is modelled is the expiry of hosts, with idle timeouts on destinations (the default); the dispatch of services is proved for all that concern one switch each. Exceptions in the reordering of messages are not covered here."
  },
  {
   "property": "C73",
   "status": "partial",
   "theorems": [
    "Faucet.Lldp.beacon_identifies_sender_partial",
    "Faucet.Lldp.beacons_differ_partial",
    "Faucet.Lldp.others_say_nothing",
    "Faucet.Lldp.right_cable_comes_up_partial",
    "Faucet.Lldp.wrong_cable_goes_down_partial",
    "Faucet.Lldp.others_change_nothing",
    "Faucet.Lldp.beacon_refines",
    "Faucet.Lldp.Ex.long_description_defect",
    "Faucet.Lldp.Ex.shadowing_tlv_defect",
    "Faucet.Lldp.Ex.different_mac_defect",
    "Faucet.Lldp.Ex.zero_id_defect"
   ],
   "note": "Proved for all beacons of at most 128 bytes whose configured TLVs do not look like FAUCET's, between switches with the same vendor part of faucet_dp_mac, datapath IDs other than 0 and, for coming up, default system names. Without each of these the property is false of the code, by the findings and Faucet.Stack.Ex.system_name_defect."
  },
  {
   "property": "C74",
   "status": "partial",
   "theorems": [
    "Faucet.Lldp.healthy_link_stays_up_partial",
    "Faucet.Lldp.first_call_sends",
    "Faucet.Lldp.Ex.impatient_neighbour_defect",
    "Faucet.Lldp.Ex.two_lost_defect"
   ],
   "note": "Proved for every history and configuration under an explicit condition on times: (k+1)*(B+T)+delay < max_lldp_lost*send_interval, where T is the longest time between calls of the service, k the number of beacons lost in a row and B is 0, the interval of the service, or both intervals, depending on the configuration. Configurations that do not meet it are accepted and fail, by the findings. One direction of a link; conditions of C73 on the configuration."
  },
  {
   "property": "C75",
   "status": "partial",
   "theorems": [
    "Faucet.Metrics.counts_right",
    "Faucet.Metrics.l2_port_right",
    "Faucet.Metrics.learned_macs_right_partial",
    "Faucet.Metrics.moved_hosts_metric_defect",
    "Faucet.Metrics.reload_stale_macs_defect",
    "Faucet.Metrics.l2_port_stale_defect"
   ],
   "note": "Numbers of hosts and the port of each known host are right in every history. The list of MAC addresses is right if no host has moved between ports and the configuration has not changed; it is false of the code otherwise, as two of the findings show. learned_l2_port also keeps hosts that are no longer known (third finding). Which hosts FAUCET knows is the subject of C01."
  },
  {
   "property": "C76",
   "status": "partial",
   "theorems": [
    "Faucet.Acl.failover_decides",
    "Faucet.Acl.dp_acl_fails_over",
    "Faucet.Acl.FEx.failover_group_is_vlan_group_defect",
    "Faucet.Acl.failover_group_shared_defect"
   ],
   "note": "Proved for ACLs of one table in one batch, for both forms of output and every state of the links, if a group ID is used with one list of ports only. Not covered: failover inside tunnels, which have findings of their own; ACLs with the same group on ports that come up one after the other (finding failover_group_shared) and IDs that are also VLAN numbers with group_table (finding failover_group_is_vlan_group)."
  },
  {
   "property": "C77",
   "status": "partial",
   "theorems": [
    "Faucet.Dot1x.Id.login_at_own_port_partial",
    "Faucet.Dot1x.Id.login_at_other_switch_defect",
    "Faucet.Dot1x.Id.first_port_defect"
   ],
   "note": "Proved while the switch keeps its position among the switches with 802.1x from the configuration in force when the port came up; false otherwise (login_at_other_switch_defect). A reload that gives 802.1x to a switch's first port ends the controller (first_port_defect)."
  },
  {
   "property": "C78",
   "status": "partial",
   "theorems": [
    "Faucet.Meters.meters_as_configured_partial",
    "Faucet.Meters.reload_drops_others",
    "Faucet.Meters.metered_rules_lost",
    "Faucet.Meters.metered_rules_kept",
    "Faucet.Meters.Ex.other_meters_deleted_defect",
    "Faucet.Meters.Ex.metered_rule_lost_defect",
    "Faucet.Meters.Ex.stale_meter_defect",
    "Faucet.Meters.Ex.same_id_defect"
   ],
   "note": "Exactly the configured meters for every history in which no reload since the last connection removed or changed a meter, and the configuration had a meter or limit when the switch connected; rules with meters stay across such reloads. False otherwise: a reload that removes or changes a meter deletes all other meters and the rules that use any meter (reload_drops_others and metered_rules_lost say exactly what is left), a cold start without meters leaves old ones, and two meters may share an id."
  },
  {
   "property": "C79",
   "status": "partial",
   "theorems": [
    "Faucet.Copro.coprocessor_output_partial",
    "Faucet.Copro.coprocessor_inject_partial",
    "Faucet.Copro.changed_coprocessor_output",
    "Faucet.Copro.Ex.overlapping_bases_defect",
    "Faucet.Copro.Ex.large_vid_defect",
    "Faucet.Copro.Ex.moved_base_defect",
    "Faucet.Copro.Ex.added_port_defect",
    "Faucet.Copro.Ex.former_coprocessor_defect"
   ],
   "note": "Proved for every history since the switch last connected in which nothing changes about coprocessors and which ports there are, and for a coprocessor that one reload after that adds or gives another base; for bases whose VLAN ids are valid and do not overlap, and packets that no rule of another part of FAUCET catches first. Old VLAN ids after a reload, ports added by a reload, former coprocessors, overlapping bases and ids over 4095 break the property: the defect theorems."
  }
 ]
}
