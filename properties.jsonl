{"id": "C01", "title": "Learned-host table is a consistent map", "statement": "After any history of learning, refreshing, moving, forgetting, clearing a port and expiring hosts on a VLAN, each MAC is associated with at most one port; the hosts reported on a port are exactly the MACs associated with that port; and the per-port and per-VLAN host counts equal the sizes of those sets.", "quantifier": "every finite sequence of host learn / forget / clear-port / expire / cold-start operations on a VLAN, with any MACs, ports and times", "why_tests_cant": "A test fixes one history; the claim is over every history of events of any length.", "anchors": ["faucet/vlan.py:VLAN.add_cache_host", "faucet/vlan.py:VLAN.expire_cache_host", "faucet/vlan.py:VLAN.clear_cache_hosts_on_port", "faucet/vlan.py:VLAN.cached_hosts_on_port"]}
{"id": "C02", "title": "Host expiry is exact", "statement": "When time never goes backwards, an expiry sweep at time `now` reports and forgets exactly the hosts last seen more than the learn timeout ago whose port is not permanent-learn, and keeps all others, even though a sweep is skipped when the controller believes the oldest host is still fresh.", "quantifier": "every finite history of learn / forget / clear / sweep operations with non-decreasing times and every timeout", "why_tests_cant": "A test fixes one history; the claim is over every history of events of any length.", "anchors": ["faucet/vlan.py:VLAN.expire_cache_hosts"]}
{"id": "C03", "title": "Permanently learned hosts stick", "statement": "Once a MAC has been learned on a permanent-learn port it is neither aged out by expiry sweeps nor moved to another port by packets arriving elsewhere.", "quantifier": "every finite history of packet learning and expiry sweeps", "why_tests_cant": "A test fixes one history; the claim is over every history of events of any length.", "anchors": ["faucet/valve_switch_standalone.py:ValveSwitchManager._perm_learn_check", "faucet/vlan.py:VLAN.expire_cache_hosts"]}
{"id": "C04", "title": "Host limits are respected", "statement": "Packet learning never makes the number of hosts learned on a VLAN exceed the VLAN's max_hosts, nor the number learned on a port exceed that port's max_hosts.", "quantifier": "every finite sequence of packets from any MACs on any ports", "why_tests_cant": "A test fixes one history; the claim is over every history of events of any length.", "anchors": ["faucet/valve_switch_standalone.py:ValveSwitchManager.ban_rules", "faucet/valve.py:Valve._vlan_rcv_packet", "faucet/port.py:Port.hosts_count"]}
{"id": "C05", "title": "Learn timeouts are ordered and bounded", "statement": "The source rule of a learned host always times out before (never after) its destination rule, jitter only moves the timeout within the configured jitter, timeouts never drop below the cache guard time, and a host only gets a never-expiring rule when its port is permanent-learn or the learn timeout is zero.", "quantifier": "every timeout, jitter, guard time and MAC hash", "why_tests_cant": "A test fixes a handful of inputs; the claim is over the whole unbounded input space.", "anchors": ["faucet/valve_switch_standalone.py:ValveSwitchManager._jitter_learn_timeout", "faucet/valve_switch_standalone.py:ValveSwitchManager._learn_host_timeouts"]}
{"id": "C06", "title": "Learning reflects the last sighting", "statement": "After a packet that is accepted for learning, the host is associated with the packet's port and time, or the learn was suppressed for one of the documented reasons (fresh entry within guard time, permanent-learn elsewhere, loop-protect ban); a host seen on a new port always has its stale rules removed before new ones are installed.", "quantifier": "every cache state, packet, port configuration and time", "why_tests_cant": "A test fixes a handful of inputs; the claim is over the whole unbounded input space.", "anchors": ["faucet/valve_switch_standalone.py:ValveSwitchManager.learn_host_on_vlan_ports", "faucet/valve_switch_standalone.py:ValveSwitchManager._learn_cache_check", "faucet/valve_switch_standalone.py:ValveSwitchManager._loop_protect_check"]}
{"id": "C07", "title": "Reordering flow messages preserves the resulting flow table", "statement": "For every batch of OpenFlow messages the switch ends with the same flow table after the reordered, de-duplicated batch as after executing all of the batch's deletions followed by all of its additions.", "quantifier": "every batch of flow messages and every initial flow table", "why_tests_cant": "A test fixes a handful of inputs; the claim is over the whole unbounded input space.", "anchors": ["faucet/valve_of.py:valve_flowreorder", "faucet/valve_of.py:dedupe_ofmsgs", "faucet/valve_of.py:dedupe_overlaps_ofmsgs", "faucet/valve_of.py:remove_overlap_ofmsgs"]}
{"id": "C08", "title": "Reordering respects dependency order and loses nothing", "statement": "In a reordered batch every deletion precedes every group/meter addition, which precede every flow addition, which precede every packet-out; every kind before flow additions is followed by a barrier; nothing is invented; and a message is only missing if an identical message, a later message for the same flow, or a subsuming deletion/addition is present.", "quantifier": "every batch of messages, with and without barriers", "why_tests_cant": "A test fixes a handful of inputs; the claim is over the whole unbounded input space.", "anchors": ["faucet/valve_of.py:valve_flowreorder", "faucet/valve_of.py:_OFMSG_ORDER", "faucet/valve_of.py:_msg_kind"]}
{"id": "C09", "title": "Reordering twice changes nothing", "statement": "Reordering an already reordered batch leaves the sequence of flow, group and meter messages unchanged.", "quantifier": "every batch of messages", "why_tests_cant": "A test fixes a handful of inputs; the claim is over the whole unbounded input space.", "anchors": ["faucet/valve_of.py:valve_flowreorder", "faucet/valve_of.py:sort_flows"]}
{"id": "C10", "title": "A flood never returns to its ingress port", "statement": "Flood actions computed for packets received on a port never output to that port unless the port is configured hairpin, and then exactly once as an in-port output.", "quantifier": "every set of tagged and untagged member ports, any exclusions, any mirror configuration", "why_tests_cant": "A test fixes a handful of inputs; the claim is over the whole unbounded input space.", "anchors": ["faucet/valve_of.py:flood_tagged_port_outputs", "faucet/valve_of.py:flood_port_outputs"]}
{"id": "C11", "title": "A flood delivers at most one copy per port with the right tag", "statement": "Each flooded port gets exactly one copy of the packet; tagged members get it with the VLAN tag and untagged members without it.", "quantifier": "every set of member ports, exclusions and mirrors", "why_tests_cant": "A test fixes a handful of inputs; the claim is over the whole unbounded input space.", "anchors": ["faucet/valve_of.py:flood_port_outputs", "faucet/valve_of.py:dedupe_output_port_acts"]}
{"id": "C12", "title": "Flood stays inside the VLAN", "statement": "A flood on a VLAN only outputs to member ports of that VLAN (or mirrors of such ports), and reaches every member that is not explicitly excluded.", "quantifier": "every VLAN membership and port state", "why_tests_cant": "A test fixes a handful of inputs; the claim is over the whole unbounded input space.", "anchors": ["faucet/valve_switch_standalone.py:ValveSwitchManager._build_flood_local_rule_actions", "faucet/vlan.py:VLAN.flood_ports"]}
{"id": "C13", "title": "A flood uses one member of each LAG and one external port", "statement": "A flooded packet leaves on at most one up port of each LACP bundle, never back out of the bundle it came in on, on at most one loop-protect external port, and on no external port at all if it came from an external port.", "quantifier": "every set of ports with any LACP/external state", "why_tests_cant": "A test fixes a handful of inputs; the claim is over the whole unbounded input space.", "anchors": ["faucet/vlan.py:VLAN.excluded_lag_ports", "faucet/valve_switch_standalone.py:ValveSwitchManager._build_flood_local_rule_actions"]}
{"id": "C14", "title": "ACL rules apply in configured order", "statement": "The rule that the switch applies to a packet is the first rule, in the configured order of ACLs and of rules inside each ACL, whose match the packet meets; if none matches, no ACL rule applies.", "quantifier": "every list of ACLs with any number of rules, every packet", "why_tests_cant": "A test fixes a handful of inputs; the claim is over the whole unbounded input space.", "anchors": ["faucet/valve_acl.py:build_acl_ofmsgs", "faucet/valve_acl.py:build_rule_ofmsgs"]}
{"id": "C15", "title": "ACL rule semantics", "statement": "A rule forwards to the rest of the pipeline exactly when it says allow (mirror without an explicit allow counts as allow); a rule without allow and without output drops; a rule can never match packets of another port or VLAN than the one it is applied to.", "quantifier": "every rule configuration, port and VLAN", "why_tests_cant": "A test fixes a handful of inputs; the claim is over the whole unbounded input space.", "anchors": ["faucet/valve_acl.py:build_acl_entry"]}
{"id": "C16", "title": "Longest prefix wins", "statement": "Among the installed routes containing a destination address, the switch uses the one with the longest prefix.", "quantifier": "every set of prefixes and every address", "why_tests_cant": "A test fixes a handful of inputs; the claim is over the whole unbounded input space.", "anchors": ["faucet/valve_route.py:ValveRouteManager._route_priority"]}
{"id": "C17", "title": "Gateway index mirrors the route table", "statement": "After any sequence of route additions and deletions on a VLAN, the prefixes recorded behind a gateway are exactly the prefixes currently routed via that gateway, and every gateway is either a host or a route gateway accordingly.", "quantifier": "every finite sequence of add/delete of routes", "why_tests_cant": "A test fixes one history; the claim is over every history of events of any length.", "anchors": ["faucet/vlan.py:VLAN.add_route", "faucet/vlan.py:VLAN.del_route", "faucet/vlan.py:VLAN.ip_dsts_for_ip_gw", "faucet/vlan.py:VLAN._update_gw_types"]}
{"id": "C18", "title": "Next-hop resolution backs off but never gives up early", "statement": "Successive resolution attempts for a silent gateway are separated by a delay that grows exponentially with the number of tries but never exceeds the configured maximum plus its jitter bound; a resolved, fresh next hop is never re-resolved; a next hop is declared dead exactly when it reached the retry limit.", "quantifier": "every sequence of resolution attempts, times, random jitters and limits", "why_tests_cant": "A test fixes one history; the claim is over every history of events of any length.", "anchors": ["faucet/valve_route.py:NextHop.next_retry", "faucet/valve_route.py:NextHop.resolution_due", "faucet/valve_route.py:NextHop.dead"]}
{"id": "C19", "title": "Resolution work per cycle is bounded", "statement": "One gateway-resolution cycle produces resolution traffic for at most max_hosts_per_resolve_cycle gateways, only for gateways whose resolution is due, in order of fewest retries first.", "quantifier": "every set of gateways and next-hop cache state", "why_tests_cant": "A test fixes a handful of inputs; the claim is over the whole unbounded input space.", "anchors": ["faucet/valve_route.py:ValveRouteManager._resolve_gateways_flows", "faucet/valve_route.py:ValveRouteManager._vlan_unresolved_nexthops"]}
{"id": "C20", "title": "Resolved gateways get their routes", "statement": "When a gateway's MAC becomes known or changes, every prefix routed via it gets a route to the new MAC; re-learning the same MAC does not touch routes; expired gateways have all their routes removed.", "quantifier": "every route table, next-hop cache and sequence of gateway sightings", "why_tests_cant": "A test fixes one history; the claim is over every history of events of any length.", "anchors": ["faucet/valve_route.py:ValveRouteManager._update_nexthop", "faucet/valve_route.py:ValveRouteManager._expire_gateway_flows"]}
{"id": "C21", "title": "LACP port forwards only when selected and in sync", "statement": "At every point of any history, a LAG member port's forwarding is enabled exactly when its bundle role is SELECTED and its LACP actor state is UP, as of the last LACP update.", "quantifier": "every history of LACP PDUs, timeouts, link changes and nominations", "why_tests_cant": "A test fixes one history; the claim is over every history of events of any length.", "anchors": ["faucet/valve.py:Valve.lacp_update", "faucet/port.py:Port.lacp_actor_update", "faucet/port.py:Port.lacp_port_update"]}
{"id": "C22", "title": "LACP partner silence takes the port down", "statement": "A LAG member that hears no LACP PDU for longer than the LACP timeout leaves UP at the next expiry check, and one that heard a PDU within the timeout is never expired.", "quantifier": "every history of PDUs and expiry checks", "why_tests_cant": "A test fixes one history; the claim is over every history of events of any length.", "anchors": ["faucet/valve.py:Valve._lacp_state_expire"]}
{"id": "C23", "title": "LAG nomination is deterministic: most members, then the root, then the lowest id", "statement": "Across a stack, the switch nominated for a bundle has at least as many members of that bundle up as any other; among equals the stack root wins, and otherwise the lowest id; whatever the order in which switches look at each other they agree, so at most one switch takes itself to be nominated.", "quantifier": "every stack, set of bundles and port states", "why_tests_cant": "A test fixes a handful of inputs; the claim is over the whole unbounded input space.", "anchors": ["faucet/valve_switch_stack.py:ValveSwitchStackManagerBase.get_lacp_dpid_nomination"]}
{"id": "C24", "title": "Stack root choice is health-first, sticky and deterministic", "statement": "The nominated root is always one of the candidates; a healthy current root is kept; a change is only ever made to a healthy candidate when one exists; the choice does not depend on the order in which candidates are listed.", "quantifier": "every set of candidate DPs with any health, priorities and ids", "why_tests_cant": "A test fixes a handful of inputs; the claim is over the whole unbounded input space.", "anchors": ["faucet/valve_stack.py:ValveStackManager.nominate_stack_root", "faucet/stack.py:Stack.nominate_stack_root"]}
{"id": "C25", "title": "Stack shortest paths make progress", "statement": "For any stack topology, following at each switch the shortest-path next hop toward a destination visits no switch twice and reaches the destination whenever it is connected.", "quantifier": "every connected or disconnected multigraph of switches, any source and destination", "why_tests_cant": "A test fixes a handful of inputs; the claim is over the whole unbounded input space.", "anchors": ["faucet/stack.py:Stack.shortest_path", "faucet/stack.py:Stack.shortest_path_port"]}
{"id": "C26", "title": "Unpruned stack links form a tree", "statement": "The stack links that are not pruned give every non-root switch exactly one active uplink toward the root, both ends of a link agree, and no cycle of active links exists.", "quantifier": "every stack topology and link state", "why_tests_cant": "A test fixes a handful of inputs; the claim is over the whole unbounded input space.", "anchors": ["faucet/valve_stack.py:ValveStackManager.reset_peer_distances", "faucet/valve_stack.py:ValveStackManager.is_pruned_port"]}
{"id": "C27", "title": "Stack link health state machine", "statement": "A stack link is only reported up while LLDP from the expected neighbour is recent and correctly cabled; any mis-cabling or loss takes it out of up, and an admin-down link never comes up by itself.", "quantifier": "every history of LLDP receptions and health checks", "why_tests_cant": "A test fixes one history; the claim is over every history of events of any length.", "anchors": ["faucet/port.py:Port.stack_port_update", "faucet/valve_lldp.py:ValveLLDPManager.update_stack_link_state"]}
{"id": "C28", "title": "Broadcast in a stack reaches every switch exactly once", "statement": "With either flooding strategy, a broadcast entering anywhere on a stack is delivered to edge ports of every switch exactly once and dies out.", "quantifier": "every tree of switches of any depth and fan-out, every ingress switch", "why_tests_cant": "A test fixes a handful of inputs; the claim is over the whole unbounded input space.", "anchors": ["faucet/valve_switch_stack.py:ValveSwitchStackManagerNoReflection._flood_actions", "faucet/valve_switch_stack.py:ValveSwitchStackManagerReflection._flood_actions"]}
{"id": "C29", "title": "Config diff is complete", "statement": "A reload reports an object as added, deleted, changed or same exactly according to the old and new configuration, and a configuration identical to the running one produces no change at all.", "quantifier": "every pair of old/new configurations", "why_tests_cant": "A test fixes a handful of inputs; the claim is over the whole unbounded input space.", "anchors": ["faucet/dp.py:DP._get_conf_changes", "faucet/dp.py:DP.get_config_changes"]}
{"id": "C30", "title": "Warm reload touches only what changed", "statement": "A warm reload removes state of exactly the deleted and changed ports/VLANs and provisions exactly the added and changed ports that are up; ports whose configuration did not change keep forwarding undisturbed.", "quantifier": "every pair of configurations and set of up ports", "why_tests_cant": "A test fixes a handful of inputs; the claim is over the whole unbounded input space.", "anchors": ["faucet/valve.py:Valve._apply_config_changes", "faucet/dp.py:DP._get_port_config_changes"]}
{"id": "C31", "title": "Invalid configuration is never applied", "statement": "If a new configuration file does not parse or validate, the set of running switches and their configurations is unchanged, the error is reported, and a later correct file is still picked up.", "quantifier": "every history of reload requests with valid and invalid files", "why_tests_cant": "A test fixes one history; the claim is over every history of events of any length.", "anchors": ["faucet/valves_manager.py:ValvesManager.parse_configs", "faucet/valves_manager.py:ValvesManager._apply_configs", "faucet/valves_manager.py:ValvesManager.request_reload_configs"]}
{"id": "C32", "title": "Config includes terminate and are all-or-nothing", "statement": "Loading a configuration terminates for every arrangement of include directives including cyclic ones; a file that fails contributes none of its settings; an optional include that fails leaves the result as if absent.", "quantifier": "every finite file system of config files with any include graph", "why_tests_cant": "A test fixes a handful of inputs; the claim is over the whole unbounded input space.", "anchors": ["faucet/config_parser_util.py:dp_include"]}
{"id": "C33", "title": "Config change watcher", "statement": "The watcher reports a change exactly when the content of some watched file differs from what was loaded (given that content changes alter the file's stat), and never for an untouched set of files.", "quantifier": "every history of file edits and polls", "why_tests_cant": "A test fixes one history; the claim is over every history of events of any length.", "anchors": ["faucet/valves_manager.py:ConfigWatcher.files_changed", "faucet/config_parser_util.py:config_changed", "faucet/valve_util.py:stat_config_files"]}
{"id": "C34", "title": "Finalized configuration is immutable", "statement": "After a configuration object is finalized, no configuration attribute can change, whatever is assigned; only attributes reserved for dynamic state can.", "quantifier": "every sequence of attribute assignments after finalize", "why_tests_cant": "A test fixes one history; the claim is over every history of events of any length.", "anchors": ["faucet/conf.py:Conf.__setattr__", "faucet/conf.py:Conf.finalize"]}
{"id": "C35", "title": "Interface ranges configure exactly the listed ports", "statement": "An interface range expression configures exactly the port numbers it lists, individual interface settings override range settings, and overlapping or reversed ranges are rejected.", "quantifier": "every range expression and interface map", "why_tests_cant": "A test fixes a handful of inputs; the claim is over the whole unbounded input space.", "anchors": ["faucet/config_parser.py:_dp_add_ports"]}
{"id": "C36", "title": "Known-up ports follow the switch", "statement": "After any history of port status messages the controller's set of up ports is the set whose most recent report was up; a port's forwarding state follows that except for ports configured to ignore status.", "quantifier": "every history of port status messages", "why_tests_cant": "A test fixes one history; the claim is over every history of events of any length.", "anchors": ["faucet/valve.py:Valve.port_status_handler", "faucet/valve.py:Valve._set_port_status"]}
{"id": "C37", "title": "Port description reply reconciles state", "statement": "After a port description reply the controller's set of up ports for the switch equals the set reported up; ports missing from the reply are treated as deleted; unchanged ports are not touched.", "quantifier": "every prior state and reply", "why_tests_cant": "A test fixes a handful of inputs; the claim is over the whole unbounded input space.", "anchors": ["faucet/valve.py:Valve.port_desc_stats_reply_handler"]}
{"id": "C38", "title": "Packet-in rate limiting", "statement": "Within any one second the controller ignores exactly every n-th learning packet, for the configured n, and the count restarts in a new second.", "quantifier": "every sequence of packet arrival times", "why_tests_cant": "A test fixes one history; the claim is over every history of events of any length.", "anchors": ["faucet/valve.py:Valve.rate_limit_packet_ins"]}
{"id": "C39", "title": "Only well-formed packets of known ports and VLANs are processed", "statement": "A packet-in changes controller state only if the switch is running, the cookie is ours (when strict), the reason is an action or invalid TTL, the ingress port is configured, the VLAN is configured, and the Ethernet source is a non-zero unicast address.", "quantifier": "every packet-in message", "why_tests_cant": "A test fixes a handful of inputs; the claim is over the whole unbounded input space.", "anchors": ["faucet/valve.py:Valve.parse_pkt_meta", "faucet/valve.py:Valve.parse_rcv_packet"]}
{"id": "C40", "title": "Config-applied metric", "statement": "The exported config-applied fraction always lies between 0 and 1, is 1 exactly when every configured switch has had its configuration applied, and a reload resets it for all switches.", "quantifier": "every history of reloads and connections", "why_tests_cant": "A test fixes one history; the claim is over every history of events of any length.", "anchors": ["faucet/valves_manager.py:ValvesManager.update_config_applied"]}
{"id": "C41", "title": "VLAN id survives its encoding in a MAC", "statement": "For the global router VLAN, the VID written into the low bytes of a MAC is read back unchanged, and the upper four bytes are preserved.", "quantifier": "every 16-bit VID and every MAC", "why_tests_cant": "A test fixes a handful of inputs; the claim is over the whole unbounded input space.", "anchors": ["faucet/valve_packet.py:int_from_mac", "faucet/valve_packet.py:int_in_mac"]}
{"id": "C42", "title": "802.1x port identities are unique", "statement": "Distinct (switch index, port number) pairs get distinct identity MAC addresses, and the port can be recovered from it.", "quantifier": "every pair of switch indices and port numbers", "why_tests_cant": "A test fixes a handful of inputs; the claim is over the whole unbounded input space.", "anchors": ["faucet/faucet_dot1x.py:get_mac_str"]}
{"id": "C43", "title": "Egress metadata identifies port and VLAN", "statement": "The metadata word written for egress rules identifies the output port and VLAN uniquely.", "quantifier": "every port number and VID", "why_tests_cant": "A test fixes a handful of inputs; the claim is over the whole unbounded input space.", "anchors": ["faucet/faucet_metadata.py:get_egress_metadata"]}
{"id": "C44", "title": "VID-present flag round trip", "statement": "Setting then clearing the OpenFlow VID-present bit returns the original VID for every legal VID.", "quantifier": "every VID", "why_tests_cant": "A test fixes a handful of inputs; the claim is over the whole unbounded input space.", "anchors": ["faucet/valve_of.py:vid_present", "faucet/valve_of.py:devid_present"]}
{"id": "C45", "title": "IPv4 fragments are never parsed as complete packets", "statement": "Any IPv4 packet that is a fragment (more-fragments set or non-zero offset) is rejected by the control plane's pre-parse check; complete packets with a well-formed header are accepted.", "quantifier": "every IPv4 header", "why_tests_cant": "A test fixes a handful of inputs; the claim is over the whole unbounded input space.", "anchors": ["faucet/valve_packet.py:ipv4_parseable"]}
{"id": "C46", "title": "BGP route withdrawal removes the route", "statement": "After a BGP peer withdraws a prefix, the prefix is neither in the RIB nor routed; after an announcement with a valid next hop it is both.", "quantifier": "every history of announcements and withdrawals", "why_tests_cant": "A test fixes one history; the claim is over every history of events of any length.", "anchors": ["faucet/faucet_bgp.py:FaucetBgp._bgp_route_handler", "faucet/valve_route.py:ValveRouteManager.add_route", "faucet/valve_route.py:ValveRouteManager.del_route"]}
{"id": "C47", "title": "802.1x logoff revokes access", "statement": "After logoff, authentication failure or port down of an 802.1x client, no flow remains that admits that client's MAC on that port, whatever was installed at login.", "quantifier": "every login configuration and history", "why_tests_cant": "A test fixes one history; the claim is over every history of events of any length.", "anchors": ["faucet/faucet_dot1x.py:FaucetDot1x._add_authenticated_flowmod", "faucet/faucet_dot1x.py:FaucetDot1x._del_authenticated_flowmod", "faucet/valve_acl.py:ValveAclManager.add_authed_mac", "faucet/valve_acl.py:ValveAclManager.del_authed_mac"]}
{"id": "C48", "title": "Tunnels are transparent", "statement": "A packet that enters an ACL tunnel leaves it at the destination with the VLAN tags it entered with (unless encapsulation is maintained), whatever the number of transit switches.", "quantifier": "every tunnel path length and packet", "why_tests_cant": "A test fixes a handful of inputs; the claim is over the whole unbounded input space.", "anchors": ["faucet/acl.py:ACL.update_source_tunnel_rules", "faucet/acl.py:ACL.update_reverse_tunnel_rules"]}
{"id": "C49", "title": "Packet processing terminates in the pipeline", "statement": "In every table configuration each table only sends packets to tables with a larger id, so pipeline processing of any packet terminates.", "quantifier": "every subset of optional tables", "why_tests_cant": "A test fixes a handful of inputs; the claim is over the whole unbounded input space.", "anchors": ["faucet/faucet_pipeline.py:FAUCET_PIPELINE", "faucet/dp.py:DP._configure_tables"]}
{"id": "C50", "title": "Trimming actions does not change what is output", "statement": "Dropping trailing non-output actions from a rule leaves the sequence of output packets unchanged.", "quantifier": "every action list and packet", "why_tests_cant": "A test fixes a handful of inputs; the claim is over the whole unbounded input space.", "anchors": ["faucet/valve_table.py:ValveTable._trim_actions", "faucet/valve_table.py:ValveTable._trim_inst"]}
{"id": "C51", "title": "Event queue keeps the newest events in order", "statement": "Events are delivered in order with strictly increasing ids, at most 120 are held, and when full only the oldest are lost.", "quantifier": "every interleaving of notify and read", "why_tests_cant": "A test fixes one history; the claim is over every history of events of any length.", "anchors": ["faucet/faucet_event.py:FaucetEventNotifier.notify"]}
{"id": "C52", "title": "LLDP beacons are bounded but never starve stack ports", "statement": "Each round sends on every running stack port with beaconing and on at most max_per_interval other ports, none of which beaconed within send_interval, with no port twice.", "quantifier": "every port state and shuffle", "why_tests_cant": "A test fixes a handful of inputs; the claim is over the whole unbounded input space.", "anchors": ["faucet/dp.py:DP.lldp_beacon_send_ports"]}
{"id": "C53", "title": "More specific flood matches win", "statement": "Among flood rules of one VLAN a rule matching more destination-MAC bits always has higher priority, so reserved multicast handling overrides generic flooding.", "quantifier": "every mask and flood priority", "why_tests_cant": "A test fixes a handful of inputs; the claim is over the whole unbounded input space.", "anchors": ["faucet/valve_switch_standalone.py:ValveSwitchManager._mask_flood_priority", "faucet/valve_packet.py:mac_mask_bits"]}
{"id": "C54", "title": "Output action clean-up preserves ports", "statement": "De-duplicating output actions keeps exactly the set of output ports, each once.", "quantifier": "every action list", "why_tests_cant": "A test fixes a handful of inputs; the claim is over the whole unbounded input space.", "anchors": ["faucet/valve_of.py:dedupe_output_port_acts", "faucet/valve_of.py:output_non_output_actions"]}
{"id": "C55", "title": "Installed host rules agree with the host table", "statement": "Whenever the controller knows a host and the switch has a rule for traffic to it, that rule outputs to the port (or LAG) where the controller knows the host; and whenever the switch silently accepts a known host's packets on a port, the controller knows the host on that port.", "quantifier": "every history of packets, expiry, port and switch events and every message shuffle", "why_tests_cant": "A test fixes one history; the claim is over every history of events of any length.", "anchors": ["faucet/valve_switch_standalone.py:ValveSwitchManager.learn_host_on_vlan_ports", "faucet/valve.py:Valve.learn_host"]}
{"id": "C56", "title": "A port that goes down gets no more host traffic", "statement": "After a port goes down no rule accepts packets of known hosts from it, and no host rule sends packets to it; if it is removed, or its switch disconnects, no host is known on it either.", "quantifier": "every history before the port goes down", "why_tests_cant": "A test fixes one history; the claim is over every history of events of any length.", "anchors": ["faucet/valve_switch_standalone.py:ValveSwitchManager._del_host_flows", "faucet/valve.py:Valve._port_delete_flows_state"]}
{"id": "C57", "title": "ACL output delivers exactly the configured copies", "statement": "A packet that meets an ACL rule with an output action leaves on exactly the configured ports, in order, each copy with exactly the configured header rewrites and VLAN tags pushed, swapped or popped, and a mirror copy on the mirror port.", "quantifier": "every rule, port and VLAN configuration and packet", "why_tests_cant": "A test fixes a handful of inputs; the claim is over the whole unbounded input space.", "anchors": ["faucet/valve_acl.py:build_output_actions", "faucet/valve_acl.py:build_acl_entry"]}
{"id": "C58", "title": "The router's own address stays with the router", "statement": "A packet to an address of the router, in the VLAN of the address, always reaches the part of the pipeline that answers for the router, whatever routes are announced and whatever hosts send.", "quantifier": "every history of announcements, withdrawals, host packets, resolutions and port events", "why_tests_cant": "A test fixes one history; the claim is over every history of events of any length.", "anchors": ["faucet/valve_route.py:ValveRouteManager._add_faucet_fib_to_vip", "faucet/valve_route.py:ValveRouteManager.add_route", "faucet/valve_route.py:ValveRouteManager._proactive_resolve_neighbor"]}
{"id": "C59", "title": "An authenticated client stays admitted and EAPOL always reaches the authenticator", "statement": "On an 802.1x port without ACLs, from a client's successful login until it logs off, fails to authenticate or the port goes down, every packet of the client other than EAPOL is treated as if the port had no 802.1x, whatever other clients and ports do meanwhile; and while an 802.1x port is up, EAPOL packets of any client reach the authenticator marked with the port, and only it, and its answers leave through that port only.", "quantifier": "every history of logins, logoffs, failures and port changes on any number of ports, every packet", "why_tests_cant": "A test fixes one history; the claim is over every history of events of any length.", "anchors": ["faucet/faucet_dot1x.py:FaucetDot1x", "faucet/valve_acl.py:create_dot1x_flow_pair", "faucet/valve_acl.py:add_authed_mac"]}
{"id": "C60", "title": "A dynamic VLAN lasts as long as the session that asked for it", "statement": "The VLAN an 802.1x port carries natively is the one named at the last login that named a known VLAN, until a logoff, a failure or the port going down.", "quantifier": "every history of logins, logoffs, failures and port changes", "why_tests_cant": "A test fixes one history; the claim is over every history of events of any length.", "anchors": ["faucet/valve.py:add_dot1x_native_vlan", "faucet/valve.py:del_dot1x_native_vlan", "faucet/faucet_dot1x.py:_get_login_flowmod"]}
{"id": "C61", "title": "All switches agree on the VLAN id of a tunnel", "statement": "Every switch of a configuration gives a tunnel the same VLAN id, in whatever order it comes across the ACLs; different tunnels get different ids, and no tunnel gets the id of a VLAN that hosts are on.", "quantifier": "every set of tunnel ACLs and VLANs, every order in which a switch meets the ACLs", "why_tests_cant": "A test fixes a handful of inputs; the claim is over the whole unbounded input space.", "anchors": ["faucet/dp.py:DP.finalize_config.get_tunnel_vlan", "faucet/dp.py:DP.finalize_config.first_unused_vlan_id", "faucet/dp.py:DP.finalize_config.create_vlan", "faucet/acl.py:ACL.resolve_ports"]}
{"id": "C62", "title": "VLANs are isolated on a switch", "statement": "Whatever has happened before, every copy of a packet that a standalone switch emits has the content of the packet and leaves only through a member of the VLAN that the packet belongs to (the native VLAN of its port if untagged, else the VLAN of its tag, which the port must carry), with the tag or without it as that member is configured, through a port that mirrors a member, or to the controller; packets from ports that are not configured go nowhere.", "quantifier": "every history of packets, learning, expiry, port, LAG and switch events, every message shuffle, every choice the switch may make among equal rules, every packet", "why_tests_cant": "A test fixes one history; the claim is over every history of events of any length.", "anchors": ["faucet/valve_switch_standalone.py:ValveSwitchManager.add_port", "faucet/valve_switch_standalone.py:ValveSwitchManager._build_flood_rules_for_vlan", "faucet/valve_switch_standalone.py:ValveSwitchManager.learn_host_on_vlan_port_flows", "faucet/valve_pipeline.py:ValvePipeline.output", "faucet/valve.py:Valve.ports_add", "faucet/valve.py:Valve.ports_delete", "faucet/valve.py:Valve.datapath_connect"]}
{"id": "C63", "title": "Packets are delivered on a switch", "statement": "Whatever has happened before, an ordinary packet that comes in through a port that is up and enabled on a standalone switch is delivered: either every other member of its VLAN gets exactly one copy, or just one member does; the latter happens only for a unicast destination that the controller has heard of, and if the controller knows where the destination is, then that member is there. So a host the controller knows always gets packets sent to it; broadcast, multicast and unknown packets reach every member; nothing goes back where it came from; the copies have the content of the packet and the right tags; and the controller is told of every source it has not heard of.", "quantifier": "every history of packets, learning, expiry, port and switch events, every message shuffle, every choice the switch may make among equal rules, every packet", "why_tests_cant": "A test fixes one history; the claim is over every history of events of any length.", "anchors": ["faucet/valve_switch_standalone.py:ValveSwitchManager.add_port", "faucet/valve_switch_standalone.py:ValveSwitchManager.del_port", "faucet/valve_switch_standalone.py:ValveSwitchManager._build_flood_rules_for_vlan", "faucet/valve_switch_standalone.py:ValveSwitchManager.learn_host_on_vlan_port_flows", "faucet/valve_switch_standalone.py:ValveSwitchManager.update_vlan", "faucet/valve.py:Valve.ports_add", "faucet/valve.py:Valve.ports_delete", "faucet/valve.py:Valve.datapath_connect", "faucet/valve_of.py:valve_flowreorder"]}
{"id": "C64", "title": "New configurations take effect completely", "statement": "When a standalone switch is given a new configuration without a cold restart, and that happens any number of times among packets, learning, expiry and port events, packets are isolated and delivered as the configuration of the moment says (C62, C63): a port that left a VLAN is out of it, one that joined is in it, a port that is gone is silent. A reload never raises an exception, keeps the hosts and the host rules on ports and in VLANs that it does not concern, makes up no hosts, and costs nothing at all if the configuration is the same.", "quantifier": "every history of configurations, packets, learning, expiry, port and switch events, every message shuffle, every packet", "why_tests_cant": "A test fixes one history; the claim is over every history of events of any length.", "anchors": ["faucet/dp.py:DP.get_config_changes", "faucet/valve.py:Valve.reload_config", "faucet/valve.py:Valve._apply_config_changes", "faucet/valve.py:Valve.dp_init", "faucet/valve.py:Valve.del_vlans", "faucet/valve_switch_standalone.py:ValveSwitchManager.del_vlan", "faucet/valve_of.py:valve_flowreorder"]}
{"id": "C65", "title": "Hosts of a stack are reached wherever they are", "statement": "On a stack whose links have settled, a packet to a host that stays at one edge port reaches that port exactly once and then dies out, from whichever switch it is sent and whichever switches have learned the host so far; and what a switch has learned of the host is the port it uses towards the host's switch.", "quantifier": "every topology, every history of packets of the host reported by any switches in any order and of switches forgetting it", "why_tests_cant": "A test fixes one history; the claim is over every history of events of any length.", "anchors": ["faucet/valve_switch_stack.py:ValveSwitchStackManagerBase._non_stack_learned", "faucet/valve_switch_stack.py:ValveSwitchStackManagerBase.edge_learn_port", "faucet/valve_switch_stack.py:ValveSwitchStackManagerReflection._learn_cache_check", "faucet/valve_stack.py:ValveStackManager.edge_learn_port_towards"]}
{"id": "C66", "title": "The router answers for itself, once, to whoever asked", "statement": "Requests for the MAC address of one of the router's addresses (ARP or neighbour discovery), pings of it and router solicitations, coming from a host of a connected network, are answered exactly once, with the right contents; packets that run out of hops are reported to their senders. An answer leaves by the port the packet came from, tagged as that port is, from the router's MAC address to the sender's and in the name of one of the router's own addresses in that VLAN. The router never claims another address, says nothing unasked, does not answer answers, and what it answers does not depend on the past. Router advertisements reach every running port of the VLAN once.", "quantifier": "every packet, every VLAN and set of router addresses, every state of routes and neighbours", "why_tests_cant": "A test fixes a handful of inputs; the claim is over the whole unbounded input space.", "anchors": ["faucet/valve_route.py:ValveIPv4RouteManager.control_plane_handler", "faucet/valve_route.py:ValveIPv6RouteManager.control_plane_handler", "faucet/valve_route.py:ValveRouteManager._resolve_vip_response", "faucet/valve.py:Valve.router_rcv_packet", "faucet/vlan.py:VLAN.pkt_out_port", "faucet/vlan.py:VLAN.flood_pkt", "faucet/valve_packet.py:arp_reply"]}
{"id": "C67", "title": "Gauge polls each statistic of each connected switch once, and records what it is told", "statement": "While a switch is connected, each statistic configured for it is asked for on its current connection by exactly one poller, for the first time within the interval and then an interval apart; no poller survives the connection or the configuration it was started for, however often switches reconnect and configurations are read, and an invalid configuration changes nothing. 'No response' is reported exactly if no reply came. A reply is passed once to each watcher configured for it. dp_status is 1 exactly for switches that are connected and configured. Flow counts are exported to Prometheus as reported, under labels that tell flows apart, and nothing is exported that was not reported; dumps of flow tables never overwrite each other.", "quantifier": "every history of connections, disconnections, reloads (valid or not), timer wake-ups at any times, and replies; every sequence of flow replies; every set of files", "why_tests_cant": "A test fixes one history; the claim is over every history of events of any length.", "anchors": ["faucet/gauge.py:Gauge._load_config", "faucet/gauge.py:Gauge._start_watchers", "faucet/gauge.py:Gauge._stop_watchers", "faucet/gauge_pollers.py:GaugeThreadPoller", "faucet/gauge_pollers.py:GaugePoller.update", "faucet/gauge_prom.py:GaugeFlowTablePrometheusPoller._update", "faucet/gauge_prom.py:GaugePrometheusClient", "faucet/watcher.py:GaugeFlowTableLogger._update"]}
{"id": "C68", "title": "An accepted configuration is consistent and means what it says", "statement": "The switches, ports, VLANs, mirrors, routers and stack links that FAUCET sets up are exactly those that the sections of the configuration describe, with the settings given there; every reference leads to something that exists; numbers, VIDs and DPIDs are in range and unique; no port has a VLAN twice, special ports are in no VLAN, the networks of a router are apart, stack links are known from both ends and lead to a root. A configuration without stacking, routers and ACLs is accepted exactly if it meets a list of conditions on its sections.", "quantifier": "every configuration with any number of switches, interfaces, VLANs, routers, ACLs and stack links", "why_tests_cant": "A test fixes a handful of inputs; the claim is over the whole unbounded input space.", "anchors": ["faucet/config_parser.py:_dp_parser_v2", "faucet/config_parser.py:_get_vlan_by_key", "faucet/port.py:Port.check_config", "faucet/vlan.py:VLAN.check_config", "faucet/dp.py:DP.finalize_config", "faucet/dp.py:DP.reset_refs", "faucet/stack.py:Stack.resolve_topology"]}
{"id": "C69", "title": "Packets are routed between the VLANs of a switch", "statement": "Whatever has happened before, an IPv4 packet that comes in through a port of a connected standalone switch, to the router's MAC address in its VLAN, is delivered to the next hop of the longest prefix for its destination: rewritten to the next hop's MAC from the router's MAC in the VLAN of the next hop, exactly once to the port where the next hop is, with that VLAN's tag or without as the port is configured, and to nobody else; it does not appear in other VLANs. Packets go from one VLAN to another only through the router: only those sent to the router's MAC, into VLANs of the same router, and only if a route says so. Packets for an address of the router, or for a connected host that is not yet known, go to FAUCET only; packets without a route go nowhere. ARP for the router goes to FAUCET, other ARP and all other packets are switched as if there were no router, and FAUCET is told of their sources.", "quantifier": "every history of packets, host learning, expiry, announcements, withdrawals, neighbour resolution, port, LAG and switch events, every message shuffle, every choice the switch may make among equal rules, every packet", "why_tests_cant": "A test fixes one history; the claim is over every history of events of any length.", "anchors": ["faucet/valve_route.py:ValveRouteManager._add_faucet_fib_to_vip", "faucet/valve_route.py:ValveIPv4RouteManager._add_faucet_vip_nd", "faucet/valve_route.py:ValveRouteManager._nexthop_actions", "faucet/valve_route.py:ValveRouteManager.add_vlan", "faucet/valve_pipeline.py:ValvePipeline.select_packets", "faucet/valve.py:Valve.datapath_connect", "faucet/valve.py:Valve.ports_add"]}
{"id": "C70", "title": "Every rule fits the table it is put in", "statement": "Each rule that FAUCET makes matches only fields its table is declared for, masked only if that is declared, all of them in an exact match table, with priority 0 only if it matches everything; it sets only fields the table may set. So making a rule never raises an exception, whatever the configuration that was accepted and whatever happened before; and a switch that was sent FAUCET's table features, and keeps to them, accepts every rule: its fields, masks, instructions, actions, next tables and prerequisites.", "quantifier": "every accepted configuration, every state and event of a switch, reloads, operations of the route managers, every set of ACLs on ports, VLANs and the datapath", "why_tests_cant": "A test fixes one history; the claim is over every history of events of any length.", "anchors": ["faucet/faucet_pipeline.py:ValveTableConfig", "faucet/dp.py:DP._generate_acl_tables", "faucet/dp.py:DP._configure_tables", "faucet/dp.py:DP.resolve_acls", "faucet/acl.py:ACL.build", "faucet/valve_table.py:ValveTable._verify_flowmod", "faucet/valve_table.py:ValveTable._trim_actions", "faucet/tfm_pipeline.py:load_tables"]}
{"id": "C71", "title": "ACLs decide what is switched", "statement": "Whatever has happened before, also if ACLs of ports were changed many times, a packet that comes in through a port of a standalone switch is first decided on by the ACLs that the port now has: the first rule that it meets sends the copies that it is configured to send, and lets it pass or not; with ACLs, what meets no rule is dropped; without, everything passes. What passes, as the rule has rewritten it, is then delivered and kept in its VLAN as if there were no ACLs; what does not pass has no other effect. So FAUCET only ever hears of packets that ACLs let through, and takes a host to be on a port only if the ACLs of that very port let a packet with the host's address through.", "quantifier": "every history of packets, learning, expiry, ACL changes, port and switch events, every message shuffle, every choice the switch may make among equal rules, every packet", "why_tests_cant": "A test fixes one history; the claim is over every history of events of any length.", "anchors": ["faucet/valve_acl.py:ValveAclManager.add_port", "faucet/valve_acl.py:ValveAclManager.del_port", "faucet/valve_acl.py:ValveAclManager.cold_start_port", "faucet/valve_acl.py:build_acl_ofmsgs", "faucet/valve.py:Valve.ports_add", "faucet/valve.py:Valve.ports_delete", "faucet/valve.py:Valve._add_default_flows", "faucet/dp.py:DP._configure_tables"]}
{"id": "C72", "title": "Switches of one controller do not affect each other", "statement": "A FAUCET that controls several standalone switches treats each of them as if it were the only one. Events of a switch are handled with the configuration and state of that switch, change nothing that FAUCET knows of another switch and cause no message to another switch; events of switches that are not configured are ignored, and so are packets, port changes and removed flows from a switch that is not connected. Every message meant for a connected switch is sent to it, and to no other. Periodic services are called once for every switch, and what they return for a switch is sent. No event makes FAUCET raise an exception. In consequence every connected switch isolates VLANs and delivers packets, whatever happens at the others and in whatever order.", "quantifier": "every number of switches and configurations of standalone switches, every interleaving of their connections, disconnections, packets, port changes, removed and timed out flows and periodic sweeps, every order in which messages are sent", "why_tests_cant": "A test fixes one history; the claim is over every history of events of any length.", "anchors": ["faucet/faucet.py:_get_valve,_send_flow_msgs,packet_in_handler,port_status_handler,flowremoved_handler,_datapath_connect,_datapath_disconnect", "faucet/valves_manager.py:valve_flow_services,_send_ofmsgs_by_valve,_other_running_valves", "faucet/valve.py:state_expire,send_flows"]}
{"id": "C73", "title": "A beacon says who sent it, and a stack link is used only if it is cabled as configured", "statement": "The LLDP frames that FAUCET sends from a port can be read by FAUCET at the other end, and what is read is the datapath ID, the system name, the port number and the link state of the port they were sent from; frames from different switches or ports are told apart, and LLDP of other equipment says nothing. So a stack link comes up with the first beacon if it is cabled as configured, is taken down by a beacon of any other switch or port, and is not changed by LLDP of other equipment.", "quantifier": "every datapath ID, port number, name, description, list of configured TLVs and state of a link, byte by byte; every frame of other equipment that can be read", "why_tests_cant": "A test fixes a handful of inputs; the claim is over the whole unbounded input space.", "anchors": ["faucet/valve_packet.py:lldp_beacon,faucet_lldp_tlvs,faucet_lldp_stack_state_tlvs,parse_faucet_lldp,faucet_tlvs,tlvs_by_subtype,tlv_cast", "faucet/valve.py:_send_lldp_beacon_on_port,lldp_handler", "faucet/valve_lldp.py:verify_lldp"]}
{"id": "C74", "title": "Beacons keep a stack link up", "statement": "A stack link that is cabled as configured and works stays up: from the first beacon that arrives on, whenever the state of the link is looked at, it is up, as long as FAUCET's service for beacons is called in time, beacons are not delayed too much and not too many of them in a row are lost. LLDP of other equipment on the link does not change that, and FAUCET survives all of it.", "quantifier": "every interleaving of calls of the service (with any jitter), arrivals, losses, LLDP frames of others and checks of the link, of any length; every configuration of intervals and limits; every beacon byte by byte", "why_tests_cant": "A test fixes one history; the claim is over every history of events of any length.", "anchors": ["faucet/valve.py:fast_advertise,_send_lldp_beacon_on_port,lldp_handler,fast_state_expire", "faucet/dp.py:lldp_beacon_send_ports", "faucet/port.py:stack_port_update", "faucet/valve_ryuapp.py:_thread_reschedule", "faucet/faucet.py:_VALVE_SERVICES"]}
{"id": "C75", "title": "Metrics about hosts say what FAUCET knows", "statement": "After an update of the metrics, the numbers of hosts shown for a VLAN and its ports are the numbers of hosts that FAUCET knows there, the MAC addresses shown for a port are exactly those of the hosts it knows on the port, each once, and the port shown for a host is the one on which it knows the host.", "quantifier": "every history of hosts being learned, moving, timing out on the switch and in FAUCET, ports going down, deleted VLANs, connections, changes of the configuration and updates of any ports; every order of hosts in an update", "why_tests_cant": "A test fixes one history; the claim is over every history of events of any length.", "anchors": ["faucet/valve.py:update_metrics,_port_highwater,learn_host,_update_expired_host,state_expire,del_vlan,_port_delete_flows_state,dp_init", "faucet/vlan.py:add_cache_host,expire_cache_host,expire_cache_hosts,reset_caches,dyn_host_cache_stats_stale", "faucet/dp.py:cold_start"]}
{"id": "C76", "title": "Failover in an ACL uses the first port whose link is up", "statement": "A packet whose first ACL rule has a failover leaves, with the configured rewrites, on the first port of the failover's list whose link is up, and on no other port of the list; if none is up it leaves on none. Other ports and mirrors of the rule and where the packet goes on are not affected.", "quantifier": "every ACL list, form of output, list of failover ports and set of links that are up, every packet and earlier content of the switch's groups", "why_tests_cant": "A test fixes a handful of inputs; the claim is over the whole unbounded input space.", "anchors": ["faucet/valve_acl.py:build_ordered_output_actions,build_output_actions,build_acl_entry", "faucet/valve_of.py:bucket,groupadd_ff,groupadd,groupdel,group_act", "faucet/valve_switch_standalone.py:_build_group_flood_rules"]}
{"id": "C77", "title": "A login opens the port the client is at", "statement": "When the authenticator reports a login, logoff or failure of a client, FAUCET applies it to the switch and port the client's EAPOL packets came from, and to no other, also if the configuration was read again since the port came up.", "quantifier": "every number of switches, every history of configurations read and of 802.1x ports coming up and going down", "why_tests_cant": "A test fixes one history; the claim is over every history of events of any length.", "anchors": ["faucet/faucet_dot1x.py:reset,set_mac_str,get_mac_str,_get_valve_and_port,port_up,port_down,create_flow_pair", "faucet/valves_manager.py:_apply_configs"]}
{"id": "C78", "title": "Rate limits on the switch are those configured", "statement": "While a switch is connected, the meters on it are exactly those that its ACL rules use and its limits on packets to FAUCET, each with the rate of the configuration: whatever was on the switch before, and after every reload, whichever meters that adds, removes or changes.", "quantifier": "every configuration of meters, every earlier content of the switch, every history of connections, restarts of the switch, reloads and other messages", "why_tests_cant": "A test fixes one history; the claim is over every history of events of any length.", "anchors": ["faucet/valve_acl.py:add_meters,del_meters", "faucet/valve_of.py:meteradd,meterdel,controller_pps_meteradd,slowpath_pps_meteradd", "faucet/valve.py:_delete_all_valve_flows,_add_default_flows,_apply_config_changes", "faucet/dp.py:_get_meter_config_changes,_get_conf_changes", "faucet/meter.py:Meter"]}
{"id": "C79", "title": "A coprocessor chooses the output port by VLAN id", "statement": "A packet that a coprocessor hands to the switch with VLAN id vlan_vid_base + n leaves by port n of the switch, without that tag and by no other port; a packet with any other VLAN id, or without a tag, is switched by its destination. This holds from when the coprocessor's port comes up, whatever was on the switch before, and after every reload it follows the new configuration.", "quantifier": "every configuration of ports and coprocessors, every earlier content of the switch, every history of connections, ports coming up and going down, reloads and other messages, every packet", "why_tests_cant": "A test fixes one history; the claim is over every history of events of any length.", "anchors": ["faucet/valve_coprocessor.py:CoprocessorManager.add_port", "faucet/faucet_pipeline.py:COPRO_DEFAULT_CONFIG", "faucet/port.py:coprocessor,vlan_vid_base", "faucet/valve.py:ports_add,ports_delete,_apply_config_changes,_add_default_flows", "faucet/valve_manager_base.py:del_port"]}
