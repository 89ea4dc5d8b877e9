# Formal model of faucetsdn/faucet in Lean 4: design

## Method

`/repo` is read as text only. Each area of the code has a folder `lean/Verif/<Area>/`:

* `Model.lean`: executable definitions that mirror the Python functions branch by branch. Every definition
  cites the file and lines it models, and says where it simplifies. Exceptions are values (`Option`/`Except`),
  loops are folds or structural recursion, time is `Int`/`Nat`, external calls (random, hash, file system) are parameters.
* `Spec.lean` (or a `Spec` section): a small specification that does not use the model's helpers.
* `Lemmas.lean`: helper lemmas.
* `Props.lean`: the property theorems only, each with an `example` that a concrete non-trivial case meets its hypotheses.

When a property is false of the code, the negation is proved with a concrete witness, the strongest true
part is proved with the suffix `_partial`, and the disagreement is listed under "Findings".

## Trusted base

* Lean 4.33.0's kernel. Theorems rest on at most `propext`, `Classical.choice`, `Quot.sound` (listed per theorem at the end).
  No axioms of our own, no `sorry`, no `native_decide`, no `bv_decide`.
* The reading of `/repo` recorded in the comments of every model definition. Nothing mechanical ties model to code.
* `lean/Verif/OpenFlow/`: what a switch does with flow, group and meter messages (`Msg.lean`) and with packets
  (`Datapath.lean`), read off the OpenFlow 1.3.5 specification. A flow add replaces the flow with the same table, priority and
  match; a strict delete removes that flow; a non-strict delete removes every flow of the table whose match is at least as
  specific (and outputs to the given port); deleting a group removes the flows that use it; of the matching flows one with
  the highest priority is picked, ties are left open. Table sizes, table feature checks and errors sent by switches are not
  modelled.
* Libraries, modelled by their documentation: `networkx.all_shortest_paths` (all shortest paths of a multigraph),
  `ipaddress`, `pytricia`, `eventlet.queue`, `chewie` (calls the 802.1x handlers in any order), `os_ken`/`ryu` (keeps match
  fields in the order of their numbers, encodes values), YAML loading (a file gives a value or an error).
* General idealisations: Python ints are `Nat`/`Int`; Python dicts are association lists in insertion order, or functions;
  the iteration order of sets, `random` and `hash` are parameters or shown irrelevant; a Python exception that leaves a
  handler is `none` (`kill_on_exception` ends the controller).

## What is modelled

| area (`lean/Verif/`) | code | left out or simplified |
|----|----|----|
| HostCache | `vlan.py`: host cache, both indices, expiry shortcut | `pytricia` host index of routes is in Route |
| Learn | `valve_switch_standalone.py`: learning chain, ban rules, timeouts, host flows, deletion; `valve.py`: `learn_host`, `state_expire` for hosts | stacks' edge learning (in Stack); packets are the fields learning looks at |
| FlowReorder | `valve_of.py` 1074-1278: ordering and de-duplication of messages | the hash of a match is a parameter |
| Actions | `valve_of.py`: output action lists; `valve_table.py` trimming | |
| Flood | `valve_switch_standalone.py` and `vlan.py` flood rules, per port and per VLAN, group tables, LAG and external exclusion, mirrors | flooding of a stack is in Stack |
| Encoding | codecs: VID present bit, VID in MAC, 802.1x identities, egress metadata, IPv4 fragment check, MAC masks | strings are lists of characters |
| Service | event notifier, packet-in limiter, LLDP beacon choice | sockets |
| Config | `config_parser_util.py` includes and hashes, `valves_manager.py` config watcher, `conf.py` attribute rules | parsing of the individual settings |
| Ports | `valve.py`, `faucet.py`: port status, port description, packet-in admission | the rules of a port are a flag |
| Lacp | actor and role machines, `lacp_update`, nomination, warm and cold reloads with the state that ports take over (`merge_dyn`, `clone_dyn_state`) | the LACPDU's bytes; VLAN by VLAN rules of a port (they are one item) |
| Acl | `valve_acl.py`, `valve_of.py` 769-840: rules to flows, output actions, port and VLAN ACLs | value encodings are a parameter (`Enc`) |
| Route | `valve_route.py`, `router.py`, `faucet_bgp.py`, `vlan.py`: routes, next hops, resolution, BGP, FIB flows; packet handlers and replies of the router (`valve_packet.py` builders), router advertisements | bytes of packets (they are taken as parsed by `os_ken`); one IP version at a time |
| Stack | `stack.py`, `valve_stack.py`, `valve_lldp.py`, `valve_switch_stack.py`: link state machine, topology graph, shortest paths, pruning, flooding (both strategies), root choice; host learning on stack ports and packets to learned and unknown hosts | LAGs across a stack, `route_learning`, host limits |
| Reload | `dp.py` `get_config_changes`, `conf.py` comparison, `valve.py` `_apply_config_changes` | a rule set is represented by the settings it is generated from |
| Ranges | `config_parser.py` 102-171 | digits of other scripts |
| Dot1x | `faucet_dot1x.py`, `valve_acl.py` 574-759, `valve.py` 1718-1743; reloads that leave the switch's configuration as it is; the addresses that stand for ports under any reload | the authenticator; reloads that change the switch between events (but for the addresses) |
| Pipeline | `faucet_pipeline.py`, `dp.py` 428-658: table ids and next tables; every place that makes a goto | sizes; match types are in Features |
| Tunnel | `acl.py` 326-761, `valve_stack.py` 358-431, `valve_acl.py` 761-843, `dp.py` 943-1185 | GRE is not in the code; VLAN tunnels only |
| L2 | one standalone switch, end to end: every message of `valve.py` 382-517, 803-1004, 1180-1300, `valve_switch_standalone.py`, `valve_pipeline.py`, `valve_lldp.py`, `valve_outonly.py` to a switch, the flow and group tables they lead to, and what happens to a packet there | stacks, ACLs, routing, 802.1x, tunnels, coprocessors, meters, configuration changes; which LACP and port status messages cause which events is in Lacp and Ports |
| L2, reloads | `dp.py` 1404-1775 (which ports and VLANs changed) and `valve.py` 1572-1712, `conf.py` 146-176 for a standalone switch: the messages of a warm reload, what `valve_flowreorder` makes of them, and the state carried over | sections of the file are compared by a parameter constrained in `Sections.Ok`; ACLs, meters, routing, stacking; what LACP does to bundles is a parameter; a cold restart is a connect with any state before it |
| Routed | `valve_route.py` 264-268, 407-505, 1006-1045, `valve_pipeline.py` 216-227, `valve.py` 283-321, 516, 881-884: Route and L2 on one switch, from the packet that comes in to the copies that go out | IPv4 only, no global routing; the TTL of packets; which packet FAUCET gets leads to which operation on routes (any operation may happen at any time) |
| Gauge | `gauge.py` 61-220, `gauge_pollers.py`, `gauge_prom.py` 60-115, 201-235, `watcher.py` 137-177: watchers, polling threads, replies, flow counts for Prometheus, names of flow table dumps | text formats, port and meter statistics once received, the HTTP server; events of `dpset` and of Gauge are one |
| Valid | `config_parser.py` 59-271, checks of `port.py` 311-490, `vlan.py` 201-300, `dp.py` 346-395, 885-1365 and `stack.py` 253-342: from the sections of a configuration to switches, ports, VLANs, mirrors, routers and links, or to an error | types of values (checked before), meters, BGP, 802.1x, tunnels, LLDP beacon settings; what an ACL matches |
| AclSw | `valve.py` 395-441, 831-935, 1668-1671 and `valve_acl.py` 480-523 on top of Acl and L2: the table for ACLs of ports on a standalone switch, while ports come and go and ACLs change | ACLs of VLANs and of the whole datapath, 802.1x |
| Multi | `faucet.py` 211-248 and 283-422, `valves_manager.py` 337-340 and 370-470, `valve.py` 1507-1534 on top of L2: which valve handles an event, calls of services on all valves, sending | port descriptions on connection, rate limits for packet-ins, changes of the configuration, services for LACP, stacking and routing |
| Lldp | `valve_packet.py` 267-391, `valve.py` 728-752 and 1006-1033, rule for LLDP of `valve_lldp.py` 60-69: the bytes of a beacon, what of it arrives, what is read; then the links of Stack; `Timing`: `valve.py` 756-785 (when beacons are sent), both ends of a link with frames under way, lost and late | the LLDP library (IEEE 802.1AB format, its checks as in `decode`), decoding of names that are not UTF-8, numbers that FAUCET does not write itself (white space, plus signs, underscores) |
| Metrics | `valve.py` 1336-1400 (`update_metrics`), 1158-1163, 1536-1540, 216-222; the stale marks of `vlan.py` 293-341: the metrics about hosts of one VLAN over the table of HostCache | Prometheus itself, metrics about routes, ports and the switch, the rate limit of updates (an update that is skipped is no event) |
| Features | `faucet_pipeline.py` 23-211, `dp.py` 428-658, 1096-1260, `acl.py` 238-280, `valve_table.py` 140-268, `tfm_pipeline.py` 54-171: what tables are declared for, how the declarations of ACL tables are found, the checks when a rule is made, and the table features sent to the switch | sizes of tables; rules of stacks, coprocessors, tunnels and 802.1x; what a switch insists on is from the OpenFlow specification (`Accepts`) |
| Meters | `valve.py` 382-433, 1572-1712, `valve_acl.py` 845-867, `valve_of.py` 1000-1070, `dp.py` 1404-1461, 1681-1700, `meter.py`: meters from the configuration to the switch, across reloads | flags and bands are one number; other messages are a parameter |
| Copro | `valve_coprocessor.py` 46-84, `faucet_pipeline.py` 121-128, `port.py` 403-411, `valve.py` 395-410, 845-885, 1572-1690: the rules for coprocessor ports and the packets they catch | messages of other managers are a parameter that leaves these rules alone; batches in the order made |

Not modelled: FAUCET's own metrics (`faucet_metrics.py`), the command line tools (`fctl.py`,
`check_faucet_config.py`, `config_encoder`), the OpenFlow session itself (handled by `os_ken`), coprocessor
details, and the validation of settings other than those in Valid.

## Plan per property

| id | what is modelled | how it is proved |
|----|------------------|------------------|
| C01 | `VLAN` host cache with both indices as an operation machine | invariant by induction over op lists, refinement to a map MAC -> (port, time) |
| C02 | `expire_cache_hosts` with `dyn_oldest_host_time` | invariant "oldest is a lower bound" over histories with monotone time |
| C03 | `_perm_learn_check`, `expire_cache_hosts`, learning chain | invariant over histories of packets and sweeps |
| C04 | `ban_rules` + learning as state machine | invariant for VLAN limit; negation for port limit (host moves), partial without moves |
| C05 | `_jitter_learn_timeout`, `_learn_host_timeouts` | arithmetic over all parameters |
| C06 | `learn_host_on_vlan_ports` chain | decision logic stated outright, case analysis |
| C07 | messages, flow table semantics, `valve_flowreorder` | refinement of batch application; negation for non-strict delete/add overlap; partial |
| C08 | same model | sublist/order lemmas over the concatenated kinds |
| C09 | same model | idempotence of dedupe and stable sort |
| C10-C13 | flood action builders, LAG/external exclusion | list induction; explicit characterisation of output set |
| C14 | ACL compilation to prioritised flows + switch lookup | induction over rule lists: lookup = first match |
| C15 | `build_acl_entry` | case analysis on rule fields |
| C16 | prefix match + `_route_priority` + switch lookup | best-priority lookup = longest prefix |
| C17 | `VLAN` route tables as op machine | negation by witness (gateway change); partial for histories without gateway change |
| C18 | `NextHop` retry state machine | induction over attempts |
| C19 | resolver loop | induction over gateway list |
| C20 | `_update_nexthop`, `_expire_gateway_flows` | invariant over histories |
| C21, C22 | LACP actor/port role machines and `lacp_update` | invariant over event histories with reloads |
| C23 | nomination function | case analysis; findings on the tie-break |
| C24 | nomination functions | order independence via minimum of a total order |
| C25 | multigraph, lexicographically least shortest path | progress measure distance |
| C26, C28 | prune decision and flooding over the resulting tree | induction over the tree |
| C27 | stack port state machine | induction over histories |
| C29, C30 | `_get_conf_changes`, port change computation, warm apply | set characterisations |
| C31, C33, C40 | reload machine of `ValvesManager`/`ConfigWatcher` | invariant over histories |
| C32 | `dp_include` over an abstract file system, fuel-free by well-founded recursion | termination + atomicity by induction |
| C34 | `Conf` attribute machine | invariant over assignment lists |
| C35 | interface range parser | characterisation; finding on substring removal |
| C36, C37 | port status handlers | induction over histories |
| C38 | rate limiter | counting over histories |
| C39 | packet admission | decision logic |
| C41-C45 | byte/bit level codecs | round trip, injectivity; negations for metadata and fragments |
| C46 | BGP handler + route manager, and reloads (`FaucetBgp.reset`) | invariant over histories: the RIB and the VLAN's routes are what the peer last said, a reload adds the RIB again; negations with witnesses |
| C47 | dot1x flow installation/removal over flow tables | negation for mixed ACL options; partial |
| C48 | tunnel instructions over header stacks | induction over path |
| C49 | pipeline table list | order proof for every sub-selection |
| C50 | action lists with packet semantics | induction over actions |
| C51 | event queue machine | induction over histories |
| C52 | beacon selection | list/set characterisation |
| C53, C54 | mask bits, output dedupe | arithmetic, list induction |
| C55, C56 | learning over a switch's flow tables, all events | invariant relating host table and flow table over histories |
| C57 | `build_acl_entry`, `build_output_actions` over packets with tag stacks | induction over actions against a packet-level specification |
| C58 | the route manager's flows in the FIB, from the start of the switch | invariant over all histories: FIB slots outside the routed prefixes keep their first flow |
| C59 | the same state machine with packets | invariant over histories: the rules that admit a client or redirect EAPOL are there and win |
| C60 | the native VLAN of 802.1x ports | refinement to "last login that named a VLAN" |
| C61 | resolution of tunnel ACLs per switch | the id is a function of the configuration, by induction over the order |
| C62 | the whole of L2: state of FAUCET and of the switch, reachable by any events | invariant: every rule in the switch is of a shape that keeps packets in their VLAN and every known host is on a member; then induction over the path of a packet through the tables |
| C63 | the same, with the ports last reported up | invariants: every rule is of a known shape, the rules that deliver are there, destination rules agree with the host table; then the path of a packet through the tables |
| C64 | L2 with reloads at any time (`RunR`) | invariant of C62 and C63 together, relative to the current configuration: what a reordered batch of deletes and adds leaves in each slot of the switch, that every rule left is one of the new configuration and every rule needed is there; the reload's effect on the host table |
| C65 | host tables of all switches of a stack for one address; copies of a packet hop by hop, by host rule or flood rule | invariant of learning over any history: every entry is the port towards the host's switch; induction down the tree and up to the root, counting copies: once if the switches that know the host form an unbroken line; any gap is a defect with a witness |
| C66 | packet handlers of both route managers with parsing limits, reply builders with tagging, the dispatch of packets to them, router advertisements | every packet by cases: at most one reply and its contents; networks by leading bits, independent of the code's masks; conditions under which there is exactly one reply; large pings, probes, second addresses in a network are defects with witnesses |
| C67 | watchers with their threads as due times, loads, connects, disconnects, wake-ups and replies as events; the label registry of flow counts; the file name loop | invariant over histories relating each watcher to what the history configured and connected; then exact output of the next wake-up after any stretch of events; exported samples by induction over replies; pigeonhole for file names |
| C68 | the parser as a partial function from sections to switches (`none` is an exception) | the result is characterised in terms of the sections, stage by stage; what other properties assume of a configuration (`L2.Cfg.WF`, `Route.ConfOk`, `Cabling.Ok`) follows from acceptance; acceptance is equivalent to a list of conditions |
| C69 | the switch of C63 with the route manager of C20 on one set of tables: the rules that classify packets, those of the FIB and those of the router's addresses | the rules of the route manager never concern the slots of switching, so the invariants of C63 hold of the switch without them and those of C20 of the FIB; packets are followed through the tables |
| C70 | the declarations of tables, the assertions of `ValveTable.flowmod`, table features; on top of the messages of L2, Routed and Acl | each message of each of these areas is shown to be of a form with a fixed list of fields, which is compared with the declaration; for ACLs the declaration is itself computed from the rules, so what is found at parsing is related to what is made later, whatever the encodings |
| C71 | the switch of C63 with the table for the ACLs of ports in front of the others: each table number is one higher, and the ACL manager of C14 fills the first table | the messages for the two parts concern different tables, so the switch is at any time the one of C63, shifted, plus the table of C14; a packet is followed through the first table, then the theorems of C62 and C63 apply to what is let through; that the shifted numbers are those FAUCET gives the tables is a theorem (`shift_id`) |
| C72 | a table of valves by datapath ID, each the controller of C62 and C63, with any number of switches; handlers, services and the sender as functions on the table | each step is a step of one switch and changes nothing for the others, or (services) one step for every switch; by induction the state of every connected switch is one that C62 and C63 are about |
| C73 | beacons as lists of bytes, written and read by functions on TLVs; the handler of links of C27 on what is read | reading undoes writing, by induction on the TLVs and on the digits of numbers; what is read then goes through the link's handler. False without conditions: five findings (long descriptions, TLVs like FAUCET's, different MAC vendors, datapath ID 0, system names) |
| C74 | the sender's two intervals, the queue of beacons under way and the link's state, as a transition system; the pace of calls, delays and losses as a separate predicate on histories | invariant by induction on the history: the last call is close to the last beacon, beacons under way follow each other closely, the last that arrived is not too old. The condition that the neighbour waits long enough is not ensured by the configuration: two findings |
| C75 | the host table of C01, the marks, the remembered numbers and the metrics as a transition system; which hosts FAUCET knows is read from its table | counts: by the table's index, every history. Ports of hosts: invariant, every history. MAC addresses: invariant (a port that is not marked lists its hosts; past the remembered number all is 0) for histories without moves and reloads; both exceptions are findings |
| C76 | fast failover groups as the OpenFlow specification has them, over the messages of the ACL builder; which links are up is a parameter; the port a bucket watches is read from its output (the code gives the same port for both) | the groups after a batch by induction over it (deletes first, then one way of making each group); the rule's actions run with them; then as C14 and C57. A group ID shared with other ports, with another ACL's batch or with a VLAN's flood group is excluded by hypothesis; the last two are findings |
| C77 | `reset` and the table from addresses to ports, several switches, any history of configurations | invariant over histories while the switch keeps its position; negations with witnesses for a switch that moves, and for a port added before `reset` |
| C78 | the meter messages of cold starts and reloads, through `valve_flowreorder`, to the meter and flow tables; everything else in a batch is a parameter | induction over histories backwards to the last connection, with the exact table after one batch; what is false (reloads that remove or change a meter) is stated exactly in `reload_drops_others`, with witnesses |
| C79 | the rules of coprocessor ports through connections, ports coming up and going down and reloads, and packets through the `vlan` and `copro` tables | invariant (exact content of the `copro` table) by induction over histories since the last connection, then the path of a packet; reloads that change coprocessors or ports, overlapping bases and ids over 4095 are refuted by `_defect` theorems |

## Wrong programs

`seeded/LOG.jsonl` has one line for each wrong program tried: an edit to a definition of the model, after which the proofs are built
again. An edit counts as caught when a theorem no longer builds. That is weaker than a proof that the theorem is now false: a proof
script that spells out the edited definition also stops building, so some of the theorems listed as failed may still be true of the
edited program. For example, the first two edits to reloads of C79 list `inv_step`, which would still hold; the claim they break is that of
`changed_coprocessor_output`. Whether the English claim is false of the edited program was judged by reading, edit by edit.

<!-- generated below: findings and axioms -->

## Findings

Places where the code does not do what the property (or the documentation) says. Each is a theorem with a concrete witness
about the model; the text is the comment of the theorem. They are statements about the model: none was reproduced on a
running controller (the sandbox has none).

### Acl

* `Faucet.Acl.vlan_escape_defect`: C15 is false if a rule gives the VLAN by both of its names: applied to VLAN 100, this rule matches packets of VLAN 7.
* `Faucet.Acl.exact_match_last_wins_defect`: With `exact_match` rules all have one priority: of two rules with the same match the last wins.
* `Faucet.Acl.failover_group_shared_defect`: An ACL with a failover group on two ports: when the second port comes up, the group is deleted and made again, which deletes the rule of the first port.
* `Faucet.Acl.ct_dropped_defect`: Connection tracking is silently left out of a rule that outputs to a port and does not allow.
* `Faucet.Acl.tunnel_messages_lost_defect`: The group messages of a tunnel's output are lost in the dictionary form: the rule uses a group that is never made.
* `Faucet.Acl.acl_removal_defect`: Removing the ACLs of a port that is up: the deletion of the port's flows has the same match, priority, table and cookie as the flow that lets everything pass, so the ordering of the messages leaves it out, and the rules of the old ACL stay.
* `Faucet.Acl.FEx.failover_group_is_vlan_group_defect`: A failover whose group ID is the number of a VLAN is taken by the VLAN's flood group. With `group_table`, FAUCET floods a VLAN through the group that has the VLAN's number, and nothing keeps a failover from using the same ID. When a switch connects, VLANs are set up before ports, and the group that is made first stays: here packets from port 1 that should go to port 2, or else to port 3, are flooded to all ports of VLAN 100, also to port 4, which the ACL does not name.

### Config

* `Faucet.Config.finalized_dict_mutable_defect`: A dictionary in a finalized configuration can still be changed in place.
* `Faucet.Config.unfinalize_defect`: The finalized mark is itself a dynamic attribute: assigning it makes everything assignable again.
* `Faucet.Config.missing_config_error_cleared_defect`: The configuration file is deleted: the failed load is reported, but the next reload request clears the error although the configuration still cannot be loaded.
* `Faucet.Config.deleted_file_missed_defect`: A file that was loaded as a required include and then skipped as an optional one is recorded as not loaded; when it is deleted the configuration is no longer valid, but no reload notices.
* `Faucet.Config.first_poll_misses_change_defect`: A change made before the first poll is not reported by the first poll, only by the second.
* `Faucet.Config.skipped_optional_reloads_forever_defect`: An optional include that exists but is invalid makes every poll load the configuration again, although nothing is ever touched: after a history that ends in the first state, `k` polls make `k` loads.
* `Faucet.Config.shared_missing_optional_defect`: An optional include that is missing does not leave the result as if it were absent: if two files of a configuration both name it, the second is refused as an include loop and its settings are lost; without the first mention they are not.
* `Faucet.Config.diamond_include_rejected_defect`: Two files including the same third file make the configuration invalid, although there is no loop.
* `Faucet.Config.include_not_mapping_raises_defect`: An included file that is YAML but not a mapping (a list, say) is not reported as a bad configuration: it raises.
* `Faucet.Config.failed_include_content_kept_defect`: The content of a file that is only reached through a file that fails is kept all the same.
* `Faucet.Config.optional_self_include_defect`: A file that includes itself optionally loads, and is recorded as not loaded.

### Copro

* `Faucet.Copro.Ex.overlapping_bases_defect`: Two coprocessors may have bases that are close together, and the table that tells the output port does not look at where the packet came from. With bases 1000 and 1001, VLAN id 1003 from the first, which stands for port 3, leads to port 2.
* `Faucet.Copro.Ex.large_vid_defect`: VLAN ids beyond 4095 are not refused. With base 1000 and a port 4098 the id for that port is 5098. In a match this is the same as 1002, because of the bit that says that there is a tag, so packets for port 2 leave by port 4098.
* `Faucet.Copro.Ex.moved_base_defect`: After a reload that changes the base of a coprocessor, its old VLAN ids go on leading to ports.
* `Faucet.Copro.Ex.added_port_defect`: A port that a reload adds cannot be used by coprocessors that were there before: no rule is made for it, as there is one after a restart.
* `Faucet.Copro.Ex.former_coprocessor_defect`: When a reload makes the port of one of two coprocessors another kind of port, packets that come in there still choose their output port by VLAN id. After a restart they do not.

### Dot1x

* `Faucet.Dot1x.Ex.eapol_lost_defect`: With an ACL that ends in a rule for everything (as usual), the first login on a port deletes the rule that takes EAPOL to the authenticator: the deletes of the ACL's rules are not strict. No client can then log off, or log in again, until the port goes down.
* `Faucet.Dot1x.Ex.login_evicts_defect`: For the same reason a second client's login deletes the first client's rules: the first is still logged in but no longer let through.
* `Faucet.Dot1x.Ex.failure_blocks_defect`: When another client of the port fails to authenticate, the rules for those who are not authenticated come back, and they match the packets of the client that is logged in, at the priority of its second rule or above.
* `Faucet.Dot1x.Ex.old_filter_kept_defect`: A client that logs in again with another ACL named by the RADIUS server keeps the rules of the first.
* `Faucet.Dot1x.Ex.vlan_lost_defect`: The VLAN a client was given is taken from the port when any other client of the port fails or logs off.
* `Faucet.Dot1x.Ex.vlan_outlives_session_defect`: FAUCET forgets which VLAN a login put a port into when it reads its configuration again, even if the configuration of the switch has not changed; the switch is told nothing. When the client logs off, the port stays in that VLAN, and the next client, for whom the RADIUS server names no VLAN, is let into it.
* `Faucet.Dot1x.Ex.lag_member_defect`: A client of a port that is a member of a LAG is let in although the port has gone down: the managers are not told.
* `Faucet.Dot1x.Ex.empty_acl_defect`: An ACL without rules for those who are not authenticated ends the controller as soon as the port comes up.
* `Faucet.Dot1x.Ex.failover_acl_defect`: So does one that sends packets to a failover group.
* `Faucet.Dot1x.Id.login_at_other_switch_defect`: A client that logs in at one switch opens a port of another. Switch 2 has 802.1x; a reload turns it on for switch 1 too, which comes first. Nothing has changed at switch 2, so its rules go on writing the old address, which now stands for the port with the same number of switch 1. The same happens when a switch ahead of switch 2 gives up 802.1x and a third one is given it later.
* `Faucet.Dot1x.Id.first_port_defect`: A reload that gives 802.1x to the first port of a switch that is configured for it (section `dot1x`) ends the controller if the port is up: the port is added before `reset` gives the switch its position, which is a `KeyError`. After a restart the same configuration works.

### Encoding

* `Faucet.Encoding.dot1x_identity_wide_port_defect`: Finding: a port number that does not fit 16 bits (OpenFlow ports have 32) is printed with a three-digit last field. Read as bytes that is the address of another port, so on the wire the two identities are the same; the next port's is no address at all.
* `Faucet.Encoding.egress_metadata_wide_port_defect`: Finding: ports whose numbers agree modulo 4096 share their metadata, so the egress table cannot tell them apart.
* `Faucet.Encoding.fragment_offset_defect`: Finding: the offset is masked with `0xFFF`, dropping its top bit, so the last fragment of a datagram that starts 32768 bytes in is taken for a complete packet.

### Features

* `Faucet.Features.Ex.classification_defect`: With `use_classification: true` the first rule for the classification table raises: the table is declared without match fields, but gets the rules that filter by source. The switch cannot be configured when it connects.
* `Faucet.Features.Ex.priority_zero_defect`: `highest_priority` (also `high_priority`) can be configured as 0; the rules with that priority raise when they are made.
* `Faucet.Features.Ex.acl_on_vlan_and_port_defect`: An ACL used on a VLAN and on a port is accepted, but what it matches is found anew for each use, and the last counts: the table for VLAN ACLs is declared with `in_port` and without `vlan_vid`, and making the rules of the VLAN raises.
* `Faucet.Features.Ex.exact_acl_defect`: With an exact match ACL on one port, the rule for a port without ACL matches only the port, and making it raises.
* `Faucet.Features.Ex.exact_acl_fields_defect`: That the rules of an exact match ACL all match the same fields is not checked when the configuration is read; making them raises.
* `Faucet.Features.Ex.many_rules_defect`: An ACL, or the ACLs of a port together, can have any number of rules. The priority goes down with each; that of rule 20481 is 0, and making it raises.
* `Faucet.Features.Ex.metadata_unannounced_defect`: With `egress_pipeline` the rules for hosts write metadata, but `load_tables` announces that instruction for no table: a switch that keeps to the table features refuses every host.

### Flood

* `Faucet.Flood.flood_back_into_lag_defect`: Without per-port rules a broadcast that came in on one member of a bundle is sent back out through another member of the same bundle: nobody is due a copy, so the port gets no rule of its own and the VLAN's rule applies.
* `Faucet.Flood.flood_external_to_external_defect`: Likewise a broadcast from one external port is sent to another external port.
* `Faucet.Flood.flood_mirror_twice_defect`: Without per-port rules the mirror port gets two copies of one broadcast.
* `Faucet.Flood.flood_no_external_defect`: If the lowest-numbered up external port is excluded for another reason, no external port gets the flood.
* `Faucet.Flood.group_update_loses_flooding_defect`: With group tables the update that follows a port going down (delete and re-add the group, then modify the rules) leaves a VLAN without flood rules: deleting the group removes the rules that use it, and a modify does not add.
* `Faucet.Flood.quiet_port_cannot_flood_defect`: With per-port rules such a port cannot originate one either: no rule matches its unknown-unicast packets.

### FlowReorder

* `Faucet.FlowReorder.reorder_shadow_defect`: Negation of the unrestricted C07, first defect: a non-strict delete with the same key as an add is dropped, and a more specific flow survives.
* `Faucet.FlowReorder.reorder_cookie_defect`: Second defect: when the same flow is added with two cookies, then the first again, the wrong one wins.
* `Faucet.FlowReorder.reorder_modify_defect`: Third defect: a modification with the same key replaces an earlier add, so the flow is never created.
* `Faucet.FlowReorder.reorder_outport_defect`: Fourth defect: a delete in all tables restricted to an output port still suppresses other deletes.
* `Faucet.FlowReorder.reorder_raises_defect`: Fifth defect: mixing a group delete with an all-table delete and a table delete raises an exception.

### Gauge

* `Faucet.Gauge.Ex.meters_never_asked_defect`: Meters exported to Prometheus are never asked for: the poller asks for port statistics instead. (The switch's answer is then taken for an answer by pollers of port statistics, and "no response" is reported for meters every time.)
* `Faucet.Gauge.Ex.meters_no_response_defect`: ... while "no response" is reported in every cycle, though the switch answers each request.
* `Faucet.Gauge.Ex.shorter_interval_ignored_defect`: A second watcher of a statistic asks for the statistic more often than the first: it is polled at the first one's interval, and the second's is ignored.
* `Faucet.Gauge.Ex.late_reply_recorded_defect`: A watcher that does not poll itself, as another one does, goes on to be passed replies after the switch has disconnected, and so does one for port state.
* `Faucet.Gauge.Ex.zero_interval_defect`: A watcher with interval 0 is accepted; its thread dies when it starts, nothing is ever asked, and nothing notices: the thread counts as active.
* `Faucet.Gauge.Ex.earlier_flows_lost_defect`: A flow of a reply has a new tag: what the reply said of flows of the table before it is no longer exported.
* `Faucet.Gauge.Ex.other_switches_lost_defect`: ... and so are the flows of all other switches.
* `Faucet.Gauge.Ex.gone_flow_exported_defect`: A flow that is no longer in the switch stays exported with its last counts, through any number of replies without it and through reloads.
* `Faucet.Gauge.Ex.unknown_table_fatal_defect`: A flow in a table that is not one of the pipeline's (another program's, or left by another version) ends Gauge.

### L2

* `Faucet.L2.Ex.tagged_lacp_breaks_isolation_defect`: On a port with LACP, an LACP frame goes to FAUCET whether it is tagged or not, with its tag. On a switch that is not in a stack FAUCET does not check that the port is in the VLAN of the tag (`faucet/valve.py` 1290-1300 does so only in stacks), and learns the source on the port. From then on packets of that VLAN to that address leave through the port, which is not in the VLAN. So a neighbour on a LAG port of VLAN 100 can take the traffic of any host of VLAN 200 for itself (the same goes for LLDP frames on ports with `receive_lldp`).
* `Faucet.L2.Ex.disabled_port_flooded_defect`: A port with `enabled: false` does not let packets in, but packets of its VLAN are still flooded to it: the port stays in the member lists of the VLAN (`faucet/vlan.py` 302-318), and floods only leave out ports that are down.
* `Faucet.L2.Ex.hairpin_egress_defect`: With the egress pipeline it is lost, although both hosts are known: the hairpin rule only says which port the packet goes to, and the rule of the egress table outputs to the number of the port (`faucet/valve_pipeline.py` 103-141 and 160-178). A switch does not send a packet back through the port it came from unless told so with `OFPP_IN_PORT`.
* `Faucet.L2.Ex.egress_port_alias_defect`: With the egress pipeline, only the low 12 bits of the port that a packet goes to are passed to the egress table (`faucet/faucet_metadata.py` 4-14). If ports 1 and 4097 are both in VLAN 100 then a packet to a host on port 1 leaves through port 4097 instead.
* `Faucet.L2.Ex.lag_port_keeps_vlan_defect`: A port with LACP that leaves a tagged VLAN in a reload can still send into that VLAN. For such a port `ports_delete` (`faucet/valve.py` 922-927) calls `lacp_update` in place of `_port_delete_flows_state`; that deletes its rules and adds them again, with the old configuration, before the new configuration is taken. So the rule that lets packets of the VLAN in stays: here port 1 leaves VLAN 200, LACP comes up again, and packets tagged 200 from port 1 are still forwarded to port 2.
* `Faucet.L2.Ex.late_packet_defect`: A packet that the switch sent to FAUCET before a reload, and that FAUCET handles after it, puts the host into a VLAN that its port has left: on a standalone switch `rcv_packet` does not check that the port is in the VLAN (`faucet/valve.py` 1290-1300 does so only in stacks). From then on packets of that VLAN for the host leave through the port, tagged. Here port 2 moves from VLAN 100 to VLAN 200 while a packet from it is on its way to FAUCET; then a packet from port 1, in VLAN 100, is forwarded to port 2.
* `Faucet.L2.Ex.added_port_dead_defect`: A port that was up when the switch connected, but not configured, and that a reload adds, does not take packets until its link goes down and up again. When a switch connects, FAUCET records only the state of configured ports (`_cold_start_ports_and_vlans`, `faucet/valve.py` 493-499), and a warm reload adds only added ports that are recorded to be up (lines 1658-1662).
* `Faucet.L2.Ex.old_mirror_gets_floods_defect`: Port 4 mirrors port 1, which is down. In a reload port 4 becomes an ordinary port of VLAN 200 and mirrors nothing. Packets that are flooded in VLAN 100 still go to port 4: flood rules send to ports that are down too, and to their mirrors; a reload makes the flood rules of a VLAN again only if ports join or leave the VLAN or a changed port in it is up (`faucet/valve.py` 1663-1667), but not for a change of mirrors of a port that is down.
* `Faucet.L2.Ex.old_gateway_dropped_defect`: When `faucet_mac` of a VLAN changes in a warm reload, packets from the old address are still dropped: the rule against spoofing (`add_drop_spoofed_faucet_mac_rules`, `faucet/valve_switch_standalone.py` 520-527) matches on the source address only, and `del_vlan` (lines 542-548) deletes rules by VLAN.
* `Faucet.L2.Ex.forgotten_host_defect`: When a port joins or leaves a VLAN, FAUCET forgets the hosts of the VLAN (`del_vlans` calls `reset_caches`, `faucet/valve.py` 452-462), but the switch keeps the rules that say that their packets need not be reported: the delete in `del_vlan` (`faucet/valve_switch_standalone.py` 542-548) is for all rules of the VLAN, but `valve_flowreorder` drops it (`remove_overlap_ofmsgs`, `faucet/valve_of.py` 1217-1225), because `add_vlan` then adds a rule with its table, match and priority. So FAUCET does not know hosts that go on sending, until the rules time out.

### Lacp

* `Faucet.Lacp.reconnect_defect`: After a reconnection in which the link of a member is down, the member is still UP and selected although it has no rules; when the link comes back and the partner is heard, its state has changed to INIT and back. A port that is not reported to be up at reconnection therefore counts as an active member.
* `Faucet.Lacp.reload_leaves_drop_defect`: A warm reload that takes a port out of its bundle leaves the rule that drops all its packets: the port, up and no longer a member, forwards nothing.
* `Faucet.Lacp.reload_readds_rules_defect`: A warm reload that removes a member from the configuration leaves rules that admit its packets, together with the rule that drops them.
* `Faucet.Lacp.stale_up_defect`: A port that is up but not configured is remembered to be up even after the switch disconnects. If a reload adds it as a bundle member while the switch is not connected, it is taken to be up. When the switch connects with the port down, and the port then comes up, nothing is done: the member hears its partner, is UP and selected, but no packet is admitted.
* `Faucet.Lacp.tie_nominates_nobody_defect`: Two switches with equally many members and the root not among them: the switch with the lowest id should be chosen, but the list itself is returned, so no switch at all is nominated and the bundle is not selected anywhere.
* `Faucet.Lacp.nominated_without_member_defect`: A switch without any member of the bundle is nominated if a port of another bundle has no synchronization.
* `Faucet.Lacp.lone_switch_not_nominated_defect`: With no other switch known (a stack of one, or all others absent), no switch is nominated.

### Learn

* `Faucet.Learn.port_limit_defect`: C04 is false for ports: a known host that moves is not counted, so port 4, limited to 1 host, ends up with 2; and because the check compares for equality, every further host is then accepted too.
* `Faucet.Learn.permanent_dst_expires_defect`: C05 fails for permanently learned hosts: the source rule never expires but the destination rule does.
* `Faucet.Learn.dst_timeout_overflow_defect`: The destination timeout may not fit the 16 bits it has in a flow mod, for a configuration the parser accepts (`timeout` 65535, all else default: guard 32767, jitter 767).
* `Faucet.Learn.loop_protect_stale_defect`: C55 is false with loop protection. Host 5 is on port 1; a packet from it appears on port 4 (loop protected) within the guard time: the ban leaves the rules alone but moves the host in the host table. When the host really is on port 4 afterwards (and the port has been up all along), each later packet only refreshes its source rule: the switch keeps sending traffic for the host to port 1 for as long as that rule is used.
* `Faucet.Learn.refresh_without_dst_defect`: C05 over histories: a destination rule that timed out (no traffic to the host) is not restored while the host keeps sending, because the controller only refreshes the source rule: traffic to the host is flooded.
* `Faucet.Learn.port_down_keeps_limit_defect`: A port that is reported down keeps its hosts in the host table, as `keep_cache` says, so that until they expire they count against the port's and the VLAN's host limits: here port 4 is limited to one host and refuses a new one, though nothing has been heard from the old one since the port last went down and up.
* `Faucet.Learn.egress_port_down_defect`: With an egress pipeline the destination rule does not itself output to the port (it writes metadata), so the output-port filter misses it: after the port goes down the switch still sends the host's traffic there instead of flooding it.
* `Faucet.Learn.hairpin_port_down_defect`: A hairpin rule outputs to `IN_PORT`, not to the port's number, so it too survives.

### Lldp

* `Faucet.Lldp.Ex.long_description_defect`: **C73, finding.** The rule that sends LLDP to FAUCET asks for the first 128 bytes of a frame, and nothing limits beacons to that length. With a description of 80 letters on a stack port (where beacons are enabled for a port, its description is put into them by default) the beacon is longer than 128 bytes; its end does not arrive, FAUCET cannot read what does arrive, and a link that is cabled as configured never comes up.
* `Faucet.Lldp.Ex.shadowing_tlv_defect`: **C73, finding.** Configured organisational TLVs (`org_tlvs`) come before FAUCET's own in a beacon, the first of a subtype is taken, and nothing keeps the configuration from using FAUCET's vendor and subtype: such a TLV replaces the datapath ID, so that switch 20 is taken for switch 9 and a link that is cabled as configured is found bad.
* `Faucet.Lldp.Ex.different_mac_defect`: **C73, finding.** The vendor by which FAUCET knows its own TLVs is that of the MAC address configured for each switch (`faucet_dp_mac`), and nothing asks for it to be the same on all switches of a stack: with different ones, switches do not recognise each other's beacons, and a link that is cabled as configured never comes up, whatever is sent on it.
* `Faucet.Lldp.Ex.zero_id_defect`: **C73, finding.** The configuration may give a switch of a stack the datapath ID 0, but a beacon with this ID is read and then ignored (`if remote_dp_id and remote_port_id`): its stack links never come up.
* `Faucet.Lldp.Ex.impatient_neighbour_defect`: **C74, finding.** How long a switch waits for beacons of its neighbour depends on the interval that is configured for the neighbour's beacons (`send_interval`, at least 1) and not on how often they can be sent: the service runs every 5 to 7 seconds, and not more often than `fast_advertise_interval`. With an interval of one second a link on which nothing is lost or late goes down after three seconds, between one beacon and the next, and comes up with the next.
* `Faucet.Lldp.Ex.two_lost_defect`: **C74, finding.** `max_lldp_lost`, 3 by default, counts intervals and not beacons: since beacons are sent 5 to 7 seconds apart, with default values a link goes down after two lost beacons, 15 seconds after the last that arrived, before a third could be sent.

### Meters

* `Faucet.Meters.Ex.other_meters_deleted_defect`: Changing the rate of one meter deletes the others from the switch, and the limit on packets to FAUCET with them, until the next cold start: `del_meters` hands the id of the meter to `meterdel` as its first argument, which is the datapath, so all meters are deleted. The rules that use them are gone too (`metered_rule_lost_defect`).
* `Faucet.Meters.Ex.metered_rule_lost_defect`: A rule with a meter is lost when the rate of a meter, its own or another, is changed in the configuration: with the meters the switch drops the rules that use them, and the ACL itself did not change, so no rule is sent again. Packets the rule let through (limited to its rate) then go to the rules after it.
* `Faucet.Meters.Ex.stale_meter_defect`: A meter left on the switch by an earlier configuration keeps its rate: a cold start without meters does not delete those of the switch, and a reload that then adds one with the same id is refused by the switch.
* `Faucet.Meters.Ex.same_id_defect`: Nothing stops two meters from having the same id (`faucet/config_parser.py` 186-189): the switch refuses the second, and the rules that name it get the rate of the first.

### Metrics

* `Faucet.Metrics.moved_hosts_metric_defect`: Hosts that change places are shown on the ports they have left. Only the ports of new and of removed hosts are marked for the metrics, and a port that is not marked is shown again only if its number of hosts has changed. If two hosts swap their ports between two updates, `learned_macs` goes on showing each on its old port, while `learned_l2_port` shows the new ones.
* `Faucet.Metrics.reload_stale_macs_defect`: `learned_macs` keeps hosts from before a change of the configuration. FAUCET then forgets both the hosts and how many it had shown, so the old values are not overwritten by 0. A host that has gone stays on show although the number of hosts shown is 0.
* `Faucet.Metrics.l2_port_stale_defect`: `learned_l2_port` keeps hosts that FAUCET no longer knows. It is removed when a port goes down, a host times out in FAUCET or a VLAN is deleted, but not when the switch reports that a host's rule has timed out, nor when the switch connects again.

### Pipeline

* `Faucet.Pipeline.Ex.static_id_collision_defect`: **Shared table id.** With static ids (NoviFlow) a datapath with a coprocessor port and a VLAN ACL has two tables with the same id, so rules of both end in one table of the switch.
* `Faucet.Pipeline.Ex.hairpin_unannounced_defect`: **Unannounced next table.** With hairpinning and an egress pipeline the rules of the hairpin table go to a table that was not announced for it: a switch that takes table features at their word refuses them.

### Ports

* `Faucet.Ports.added_down_port_forwards_defect`: An added port with its link down forwards, although it is not known to be up (`reason == OFPPR_ADD` is enough).
* `Faucet.Ports.blocked_report_toggles_defect`: A blocked port that keeps reporting the same state is taken down by one report and up by the next.
* `Faucet.Ports.deleted_port_stays_up_defect`: A deleted port whose last state has the link up stays in the set of up ports.
* `Faucet.Ports.local_port_taken_down_defect`: The switch's local port, configured, is treated as deleted by a reply that has it up.
* `Faucet.Ports.reconnect_loses_port_defect`: A switch that connects again without having been taken as disconnected (`EventDPReconnected`), with a link down: when the link comes up, its status does not differ from the one remembered, so that the port's rules, gone since the reconnection, are never installed.
* `Faucet.Ports.missing_unknown_port_defect`: A port without configuration that vanishes from the replies stays in the set of up ports.
* `Faucet.Ports.vid_zero_defect`: With global routing off (`global_vlan` is 0), a frame tagged with VID 0 is accepted although VLAN 0 is not configured, and is taken to be in the VLAN named by the last two octets of its destination.

### Ranges

* `Faucet.Ranges.Ex.nested_range_defect`: The text of a range is removed wherever it occurs, also within another range (config_parser.py 147): `5-9,35-91` leaves `31` behind, and port 31 is configured although it is not listed.
* `Faucet.Ranges.Ex.duplicate_number_defect`: Two interfaces that give the same number: the first is dropped without an error (config_parser.py 123).
* `Faucet.Ranges.Ex.overlap_within_defect`: Ranges of one expression may overlap: only different expressions are compared (config_parser.py 153-156).

### Reload

* `Faucet.Reload.Ex.dp_acl_change_missed_defect`: An ACL of the whole switch (`dp_acls`) is rewritten: nothing is restarted and the switch goes on enforcing the old one. `get_config_changes` compares only the names in `dp_acls` (dp.py 1727-1731), and of the changed ACLs only those of ports and `acls_in` of VLANs are acted on (dp.py 1501-1508, 1646-1649).
* `Faucet.Reload.Ex.vlan_out_acl_change_missed_defect`: The same for an ACL on what leaves a VLAN (`acls_out`): only `acls_in` is looked at (dp.py 1515-1536).
* `Faucet.Reload.Ex.new_mirror_keeps_sending_defect`: An ACL on port 1 starts to mirror to port 3, which so becomes output only (dp.py 1127-1129). Its own section is as it was: after the reload the switch still has the rules that let port 3's host send.
* `Faucet.Reload.Ex.externals_not_updated_defect`: One port becomes external (`loop_protect_external`): the other ports' rules, which should now mark packets as coming from an external or internal port (valve_switch_standalone.py 564-577), are not touched.
* `Faucet.Reload.Ex.copro_new_port_defect`: A port is added to a switch with a coprocessor port: the coprocessor is not told how to send to it (valve_coprocessor.py 63-90).
* `Faucet.Reload.Ex.unstack_raises_defect`: A switch loses its last stack port: the comparison asks for the hash of a stack that is not there and raises (dp.py 1577-1579).
* `Faucet.Reload.Ex.same_config_restarts_defect`: With a stack link down the running graph has fewer links than the one a reload builds from the same configuration (stack.py 322-367, dp.py 1577-1588): a reload of the very same configuration restarts the stack ports and with them their VLANs.
* `Faucet.Reload.Ex.down_port_acl_defect`: A port that is down has only its ACLs changed: the ACLs are put on the switch although the port is down (valve.py 1670-1673).
* `Faucet.Reload.Ex.float_change_missed_defect`: Two sections that differ only in a floating point setting, such as `port_table_scale_factor` or `min_stack_health`, compare as the same: `_str_conf` makes `None` of both (conf.py 183-205).
* `Faucet.Reload.Ex.set_order_counts_defect`: The same set, iterated in another order, compares as different (conf.py 198-199): with two VIPs whose hashes collide, listing them in another order is a change.

### Route

* `Faucet.Route.Ex.ping6_cut_defect`: **Pings of IPv6 with more than 88 bytes of data come back cut short**, although the switch sends the controller up to 128 (valve_route.py 1330 against valve_packet.py 55-57): the router parses 96 bytes after the IPv6 header. The sender sees a reply whose data do not match.
* `Faucet.Route.Ex.large_ping_unanswered_defect`: **Pings with more than 128 bytes of data are not answered at all**: the packet is cut to 174 bytes and then counts as incomplete.
* `Faucet.Route.Ex.large_expired_unreported_defect`: **Nor are large packets that run out of hops reported**: `traceroute` with large packets does not see the router.
* `Faucet.Route.Ex.probe_unanswered_defect`: **Address probes are not answered**: a host that means to use the router's own address and asks first whether anybody has it (RFC 5227, sender address 0.0.0.0; RFC 4862, from `::`) hears nothing, so the conflict goes unnoticed.
* `Faucet.Route.Ex.second_address_silent_defect`: **Of two addresses of the router in one network only one answers**, the one that comes first in a set: requests for the other and pings of it are ignored.
* `Faucet.Route.Ex.error_about_error_defect`: **An error message that runs out of hops is itself reported with an error message**, which RFC 1122 (3.2.2) forbids: so may be the report in turn.
* `Faucet.Route.Ex.options_quote_defect`: **The report of a packet with IP options does not identify it**: 28 bytes are quoted even if the header alone is longer (60 bytes here), so no byte of what follows the header is quoted, let alone the 8 that RFC 792 asks for.
* `Faucet.Route.Ex.far_address_silent_defect`: **A host cannot ping the router's address in another VLAN**, though packets for other hosts there are routed.
* `Faucet.Route.vip_spoofed_defect`: C58 is false if a host uses the router's address as its source: the FIB then sends the router's traffic to the host.
* `Faucet.Route.vip_announced_defect`: C58 is false if a BGP peer announces the router's address: the check for it (`is_faucet_vip(ip_dst)`) never succeeds.
* `Faucet.Route.second_vip_blackholed_defect`: C58 is false for the second of two router addresses in a network: a packet to it that reaches the controller makes it look for a host with that address, and the router's flow is replaced by a black hole.
* `Faucet.Route.gateway_down_defect`: C20 is false when the port of a gateway goes down: the host route of the gateway goes, the routes behind it stay.
* `Faucet.Route.reload_keeps_route_defect`: C20 is false after a reload, even of the same configuration: FAUCET forgets which hosts it has resolved, and the switch keeps their routes (`faucet/valve.py` 1622-1625: no message is sent). When the host's port goes down, or the host does not answer, its route stays, since FAUCET no longer knows of it.
* `Faucet.Route.gateway_changed_defect`: C20, C46: a prefix that is announced via another gateway, whose MAC is not known yet, is still sent to the old one.
* `Faucet.Route.gateway_stolen_defect`: And when the old gateway is seen with another MAC, the prefix goes to it again, although its route is via the new one.
* `Faucet.Route.bgp_other_vlan_defect`: C46 is false when the next hop is in another VLAN of the router: the announcement puts the route there, the withdrawal looks for it in the speaker's VLAN. The prefix leaves the RIB and stays routed.
* `Faucet.Route.bgp_removes_static_defect`: C46 and the configuration: a peer that withdraws a prefix removes the static route for it, also if it never announced the prefix. The route is back when the configuration is read again.
* `Faucet.Route.bgp_removed_speaker_defect`: A BGP speaker that is taken out of the configuration goes on changing routes: `reset` keeps it, and its handler looks only for the VLAN. If it is configured again later, what its peer said in the meantime is routed at once.
* `Faucet.Route.bgp_no_nexthop_defect`: An announcement without next hop raises an exception.
* `Faucet.Route.link_local_wrong_vlan_defect`: A link-local next hop (both VLANs have fe80::/10 addresses, here 0xfe000001/8 and 0xfe000002/8) of a router of two VLANs is taken to be in one of them, whichever VLAN it was announced in.
* `Faucet.Route.gateway_moved_defect`: C17 is false when a prefix is given another gateway: it stays recorded behind the old one.
* `Faucet.Route.gateway_kept_defect`: A gateway whose last route is deleted stays a route gateway: the resolver asks for it for ever.

### Routed

* `Faucet.Routed.Ex.routed_lost_defect`: With flooding rules per port (`combinatorial_port_flood`), packets that the router sends into another VLAN are lost while the switch does not have a rule for the MAC of the next hop, although FAUCET has the route and knows the MAC and the port of the next hop: the flooding rules of a VLAN are only for packets that come in through the VLAN's ports. Here the rule for a host of VLAN 200 has expired, and a packet for it that comes in through port 1 of VLAN 100 reaches nobody. With one rule per VLAN, it is flooded.
* `Faucet.Routed.Ex.same_trunk_not_routed_defect`: FAUCET does not route between two VLANs of one trunk port: a packet of VLAN 100 that comes in through port 3, for a host of VLAN 200 behind port 3, is lost, as the rule for the host sends it to the port and not back to the port it came in through (`OFPP_IN_PORT` is only used with `hairpin`).
* `Faucet.Routed.Ex.arp_not_learned_defect`: In a VLAN with an address of the router FAUCET is not told of hosts that only send ARP: ARP goes from the first table to that of addresses of the router and from there to the table of destinations, past the table of sources. Here the switch has just connected; a host asks for the MAC of another, and FAUCET does not get the packet. Without the router's address it would, see `unrouted_source_told_partial`.
* `Faucet.Routed.Ex.arp_other_vlan_defect`: An address of the router in one VLAN cannot be used by a host of another, although no router is between them: ARP for it is sent to FAUCET in every VLAN that has an address, and not flooded, as the rules for ARP do not match the VLAN. FAUCET does not answer. Here it is 10.0.2.254, which the router has in VLAN 200, in VLAN 100.
* `Faucet.Routed.Ex.ping_needs_proactive_defect`: Without proactive learning (`proactive_learn_v4: False`) the router does not answer pings: the rule that sends ICMP for the router to FAUCET is only added with proactive learning, so the switch drops a packet to 10.0.1.254.
* `Faucet.Routed.Ex.over_limit_routed_defect`: A limit on the number of hosts of a port (`max_hosts`) does not stop a host from using the router: the rule that drops the packets of further hosts has a lower priority than the rules that select packets for the router. Here port 1 may have one host; a second one sends, and packets from it are dropped, but packets to the router are routed.

### Service

* `Faucet.Service.event_lost_on_disconnect_defect`: An event the client loop has taken is gone if sending it fails: lost although the queue was never full.
* `Faucet.Service.rate_limit_fractional_defect`: Packets whose time stamps all differ from the one before (as those of a clock with fractions of a second do) are never ignored, however many there are per second, for any setting of at least 2.

### Stack

* `Faucet.Stack.Ex.admin_down_check_defect`: The controller does not survive checking an admin-down stack port: `stack_port_update` returns a bare state where its caller unpacks a pair (port.py 740-741, valve_lldp.py 163).
* `Faucet.Stack.Ex.unknown_state_defect`: An LLDP packet on a stack port announcing a stack state without a name ends the controller: any neighbour can send one (valve.py 1027-1041, `stack_state_name`).
* `Faucet.Stack.Ex.system_name_defect`: A switch configured with an LLDP system name other than its own name is taken for the wrong switch by its stack neighbours, so the link never comes up (valve.py 741-743, valve_lldp.py 112-116).
* `Faucet.Stack.Ex.one_way_link_defect`: A link that works in one direction only takes the switch on its good end off the network: switch 2's link to the root is up at both ends, but switch 2 takes the cut off switch 3 (whose path to the root is empty, of length 0) for closer to the root, and uses no port at all (valve_stack.py 71-85, 96-106).
* `Faucet.Stack.Ex.stale_view_defect`: After a flap of one end of a link, every link is up at both ends and every graph is right, yet switch 2 has worked out its ports from switch 3's topology graph before that was updated, and has no port towards the root (valve_lldp.py 188-189: each switch in turn updates its graph and recalculates).
* `Faucet.Stack.Ex.reload_view_defect`: A reload cuts a switch off: switch 3 reaches the others only through switch 2, but switch 2 recalculates while switch 3 still has its freshly configured topology, takes it for as close to the root as switch 4, and prunes the port to it (valve.py 195-203, 249-252; valve_stack.py 47).
* `Faucet.Stack.Ex.unpruned_link_defect`: The link between two switches equally far from the root is pruned at neither end, although it is not part of the tree: `is_pruned_port` alone does not describe a tree.
* `Faucet.Stack.Ex.gone_link_used_defect`: Unicast traffic is sent into a stack link that has been declared gone: `peer_up_ports` looks only at whether the port is physically up (stack.py 442-451).
* `Faucet.Stack.Ex.no_lacp_ranked_last_defect`: A switch without LACP ports is ranked as if none of its LACP ports were up (stack.py 226-228, whose comment says 100%), so a candidate with the best priority loses to any candidate with LACP ports.
* `Faucet.Stack.Ex.gap_defect`: A gap in the line of switches that know a host: switch 2 has forgotten it, as it does when its port was down for a moment, and the root has not. A packet to the host from switch 2, next to the host, is flooded to the root for reflection; the root knows the host beyond the port the packet came from, and a switch does not send a packet back where it came from. The packet is lost.
* `Faucet.Stack.Ex.moved_host_defect`: A host moves from switch 3 to switch 4. Switch 3 hears its first packet within two seconds and takes it for a reflection; so it keeps its own entry, and the root, which asks the other switches in no particular order, believes switch 3. Packets to the host from the root do not arrive.
* `Faucet.Stack.Ex.reflected_copy_moves_host_defect`: A host moves from switch 4, which has not heard of it since, to switch 3. Three seconds after switch 3 learned it, a packet of the host to an unknown destination comes back from the root; switch 3 then believes switch 4 and forgets the host on its own port.
* `Faucet.Stack.Ex.parallel_unknown_defect`: Two switches joined by two links: floods use both links and only broadcasts are filtered on the second. A packet to a host nobody knows yet arrives twice, with and without reflection.

### Tunnel

* `Faucet.Tunnel.Ex.reverse_two_sources_defect`: Two sources of a bi-directional tunnel: the rule of the way back is the one to the last source, so nothing comes back to the first (valve_stack.py 413-417).
* `Faucet.Tunnel.Ex.stale_rule_defect`: The source switch loses the path: nothing is updated, and the rule that sends packets into the gone link stays (valve_stack.py 374-386).
* `Faucet.Tunnel.Ex.inject_defect`: A host on any port of a transit switch that sends the tag of the tunnel gets its packet into the tunnel: the rule does not ask where the packet comes from (valve_acl.py 302-309).
* `Faucet.Tunnel.Ex.single_maintain_allow_defect`: A tunnel within one switch that keeps the tag, in a rule that also allows the packet: the packet that goes on in the VLAN table has the tag of the tunnel (acl.py 736-755).
* `Faucet.Tunnel.Ex.two_gotos_defect`: A tunnel to the switch itself in a rule that allows the packet: two instructions name a next table, which OpenFlow does not permit (acl.py 727-732, valve_acl.py 262-264).
* `Faucet.Tunnel.Ex.source_rules_defect`: An ACL that blocks a host and sends the rest into a tunnel: when the topology changes the second rule is built again; the delete before it is not strict and removes the first, which nothing puts back, so the host is no longer blocked (valve_acl.py 359-361, 802-843).
* `Faucet.Tunnel.Ex.source_priority_defect`: A port with two ACLs, the second with a tunnel: at first its rule is below those of the first ACL, when it is built again for a topology change it is above them (valve_acl.py 822-824).
* `Faucet.Tunnel.Ex.vids_order_defect`: With an ACL of two destinations the order in which a switch comes across the ACLs decides the ids: id 103 is one tunnel on one switch and another tunnel on the next (dp.py 1081-1127).
* `Faucet.Tunnel.Ex.same_id_defect`: Two tunnels of an ACL with the same id and different destinations are accepted; only the second destination is kept, for both.

### Valid

* `Faucet.Valid.Ex.mirror_in_vlan_defect`: A mirror port may be in a VLAN: whether it has VLANs is decided by whether its native VLAN is true, and 0 is not (`faucet/port.py` 339). VLAN section `0` with VID 100 is accepted, and so is `native_vlan: 0` on a mirror.
* `Faucet.Valid.Ex.in_port_interface_defect`: An interface may be numbered as the reserved port `OFPP_IN_PORT`, which stands for "where the packet came from": `ignore_port` makes an exception for it (`faucet/valve_of.py` 265-267). Output to that interface of a VLAN sends packets back.
* `Faucet.Valid.Ex.interface_dropped_defect`: Two interface sections with one number are accepted, and the first is dropped without a word (`faucet/config_parser.py` 115-128). Here "a" (`other 1`) and "b" both have number 1, in VLANs 100 and 200: port 1 is only in VLAN 200.
* `Faucet.Valid.Ex.vlan_key_before_vid_defect`: `native_vlan: 100` need not be VLAN 100: a section with *key* 100 comes first (`faucet/config_parser.py` 59-76), even if its VID is 200 and there is a VLAN with VID 100.
* `Faucet.Valid.Ex.mirrored_twice_defect`: A mirror that lists a port by its number and by its name gets two copies of each of its packets: the port is mirrored to it twice (`faucet/dp.py` 1019-1031).
* `Faucet.Valid.Ex.same_vip_twice_defect`: The same VIP on two VLANs of a router is not noticed: the VIPs are collected in a set before they are compared (`faucet/dp.py` 1296-1307). A VIP in the network of another one is refused.
* `Faucet.Valid.Ex.overlap_across_routers_defect`: VIPs that overlap are accepted if a VLAN joins two routers: only the VIPs of one router are compared, though packets are routed between any two VLANs that have a router in common. VLAN 300 is in both routers here, so that VLAN 100 of the one and VLAN 200 of the other, which have one network, are both next to it.
* `Faucet.Valid.Ex.lone_vlan_order_defect`: Whether a router of one VLAN that is in another router too is accepted depends on the order of the routers (`faucet/dp.py` 1286-1295).
* `Faucet.Valid.Ex.unknown_router_vlan_defect`: A router may name VLANs that do not exist: they are left out without a word (`faucet/dp.py` 1262-1271).
* `Faucet.Valid.Ex.one_sided_link_defect`: A stack link may be configured from one end only: the check counts links by the names of ports (`faucet/stack.py` 264-273, 325-342), and two ports of a switch may have one name. Ports 1 and 2 of switch 1 are both called "x" and both lead to port 1 of switch 2, which is a host port and has no stack configuration.
* `Faucet.Valid.Ex.self_link_defect`: A stack link may join two ports of one switch.
* `Faucet.Valid.Ex.acl_mirror_output_only_defect`: An ACL that mirrors to a port of a VLAN turns it into a port for output only (`faucet/dp.py` 1172-1175): it stays a member of the VLAN and gets its broadcasts, but nothing that arrives on it is forwarded.

### Noticed while reading, not modelled

* `faucet_bgp.py` 92: routes of a BGP peer that goes down are kept (the code has a TODO).
* `valve_packet.py`: `parse_packet_in_pkt` unpacks the VLAN header of a 14-byte frame with type 0x8100 and raises.
* `port.py` 381-402: the check of 802.1x options looks at the class defaults, so it never triggers.
* `dp.py` 891-925: `reset_refs` tests a bound method (`if self.stack_ports`), which is always true, so that every switch
  of a configuration with stacking or not keeps all VLANs.
* `dp.py` 1120-1126 compares a VLAN object with a number, and `dp.py` 1150 tests `stack is None` where an unstacked port has
  `{}`: two checks of tunnels that never fail.
* `faucet_dot1x.py`: `mac_to_port` keeps the entries of earlier resets.
* An ACL with `ct` may name any table as `recirc_table`, also an earlier one: such a rule can make packets loop.
* Masked `tcp_src`/`udp_dst` in an ACL for authenticated clients raise when the MAC of a client is added to the rule.

## Axioms of each claimed theorem

From `#print axioms`, for the 523 theorems of `MANIFEST.json`.

**none** (9 theorems): `Faucet.HostCache.expiry_needs_monotone_clock`, `Faucet.Learn.permanent_dst_expires_defect`, `Faucet.Learn.dst_timeout_overflow_defect`, `Faucet.Config.include_not_mapping_raises_defect`, `Faucet.Pipeline.Ex.static_id_collision_defect`, `Faucet.Gauge.Ex.earlier_flows_lost_defect`, `Faucet.Gauge.Ex.other_switches_lost_defect`, `Faucet.Gauge.Ex.unknown_table_fatal_defect`, `Faucet.AclSw.shift_id`

**propext** (66 theorems): `Faucet.Learn.port_limit_defect`, `Faucet.Acl.drops_without_allow`, `Faucet.Acl.vlan_escape_defect`, `Faucet.Acl.ct_dropped_defect`, `Faucet.Route.gateway_moved_defect`, `Faucet.Route.relearn_quiet`, `Faucet.Route.gateway_down_defect`, `Faucet.Route.gateway_changed_defect`, `Faucet.Route.gateway_stolen_defect`, `Faucet.Route.reload_keeps_route_defect`, `Faucet.Lacp.collecting_only_when_selected`, `Faucet.Lacp.calm_of_no_reload`, `Faucet.Lacp.tie_nominates_nobody_defect`, `Faucet.Lacp.nominated_without_member_defect`, `Faucet.Lacp.lone_switch_not_nominated_defect`, `Faucet.Stack.admin_down_stays`, `Faucet.Stack.Ex.admin_down_check_defect`, `Faucet.Stack.Ex.system_name_defect`, `Faucet.Reload.same_or_description`, `Faucet.Reload.same_as_itself`, `Faucet.Reload.Ex.float_change_missed_defect`, `Faucet.Config.invalid_config_not_applied`, `Faucet.Config.missing_config_error_cleared_defect`, `Faucet.Config.failed_include_changes_nothing`, `Faucet.Config.shared_missing_optional_defect`, `Faucet.Config.diamond_include_rejected_defect`, `Faucet.Config.failed_include_content_kept_defect`, `Faucet.Config.optional_self_include_defect`, `Faucet.Config.deleted_file_missed_defect`, `Faucet.Ranges.Ex.duplicate_number_defect`, `Faucet.Ranges.Ex.overlap_within_defect`, `Faucet.Encoding.fragment_offset_defect`, `Faucet.Route.bgp_other_vlan_defect`, `Faucet.Route.bgp_no_nexthop_defect`, `Faucet.Route.bgp_removes_static_defect`, `Faucet.Route.bgp_removed_speaker_defect`, `Faucet.Pipeline.ids_consecutive`, `Faucet.Pipeline.first_table`, `Faucet.Pipeline.Ex.hairpin_unannounced_defect`, `Faucet.Route.vip_spoofed_defect`, `Faucet.Route.vip_announced_defect`, `Faucet.Route.second_vip_blackholed_defect`, `Faucet.Dot1x.Ex.eapol_lost_defect`, `Faucet.Dot1x.Ex.login_evicts_defect`, `Faucet.Dot1x.Ex.failure_blocks_defect`, `Faucet.Dot1x.Ex.vlan_lost_defect`, `Faucet.Dot1x.Ex.vlan_outlives_session_defect`, `Faucet.Route.Ex.ping6_cut_defect`, `Faucet.Route.Ex.probe_unanswered_defect`, `Faucet.Route.Ex.second_address_silent_defect`, `Faucet.Route.Ex.error_about_error_defect`, `Faucet.Route.Ex.options_quote_defect`, `Faucet.Route.Ex.far_address_silent_defect`, `Faucet.Gauge.Ex.meters_no_response_defect`, `Faucet.Gauge.Ex.shorter_interval_ignored_defect`, `Faucet.Gauge.Ex.late_reply_recorded_defect`, `Faucet.Gauge.Ex.zero_interval_defect`, `Faucet.Lldp.Ex.long_description_defect`, `Faucet.Lldp.Ex.different_mac_defect`, `Faucet.Lldp.Ex.zero_id_defect`, `Faucet.Lldp.Ex.impatient_neighbour_defect`, `Faucet.Lldp.Ex.two_lost_defect`, `Faucet.Metrics.moved_hosts_metric_defect`, `Faucet.Metrics.reload_stale_macs_defect`, `Faucet.Metrics.l2_port_stale_defect`, `Faucet.Acl.failover_group_shared_defect`

**Quot.sound** (1 theorems): `Faucet.Config.invalid_config_survives`

**Quot.sound, propext** (150 theorems): `Faucet.Learn.never_expires_iff`, `Faucet.Learn.refresh_without_dst_defect`, `Faucet.FlowReorder.reorder_shadow_defect`, `Faucet.FlowReorder.reorder_cookie_defect`, `Faucet.FlowReorder.reorder_modify_defect`, `Faucet.FlowReorder.reorder_outport_defect`, `Faucet.FlowReorder.reorder_raises_defect`, `Faucet.Flood.flood_mirror_twice_defect`, `Faucet.Flood.quiet_port_cannot_flood_defect`, `Faucet.Flood.flood_no_external_defect`, `Faucet.Flood.group_update_loses_flooding_defect`, `Faucet.Flood.flood_back_into_lag_defect`, `Faucet.Flood.flood_external_to_external_defect`, `Faucet.Acl.acl_removal_defect`, `Faucet.Route.gateway_index_partial`, `Faucet.Route.gateway_kept_defect`, `Faucet.Route.retry_backoff`, `Faucet.Route.backoff_grows`, `Faucet.Route.fresh_and_dead`, `Faucet.Route.resolve_bounded`, `Faucet.Route.resolve_fewest_first`, `Faucet.Lacp.stale_up_defect`, `Faucet.Lacp.reload_leaves_drop_defect`, `Faucet.Lacp.reload_readds_rules_defect`, `Faucet.Lacp.reconnect_defect`, `Faucet.Lacp.nominated_has_most`, `Faucet.Lacp.nominated_has_member`, `Faucet.Lacp.strict_most_nominated`, `Faucet.Lacp.root_wins_tie`, `Faucet.Stack.Ex.gone_link_used_defect`, `Faucet.Stack.down_link_pruned`, `Faucet.Stack.quiet_change_refreshes`, `Faucet.Stack.Ex.one_way_link_defect`, `Faucet.Stack.Ex.stale_view_defect`, `Faucet.Stack.Ex.reload_view_defect`, `Faucet.Stack.Ex.unpruned_link_defect`, `Faucet.Stack.beacon_brings_up`, `Faucet.Stack.Ex.unknown_state_defect`, `Faucet.Reload.change_noticed`, `Faucet.Reload.deleted_added_exact`, `Faucet.Reload.Ex.set_order_counts_defect`, `Faucet.Reload.Ex.dp_acl_change_missed_defect`, `Faucet.Reload.Ex.vlan_out_acl_change_missed_defect`, `Faucet.Reload.Ex.same_config_restarts_defect`, `Faucet.Reload.Ex.unstack_raises_defect`, `Faucet.Reload.Ex.new_mirror_keeps_sending_defect`, `Faucet.Reload.Ex.externals_not_updated_defect`, `Faucet.Reload.Ex.copro_new_port_defect`, `Faucet.Reload.Ex.down_port_acl_defect`, `Faucet.Config.settings_of_loaded_files`, `Faucet.Config.poll_loads_iff`, `Faucet.Config.untouched_never_reloaded_partial`, `Faucet.Config.first_poll_misses_change_defect`, `Faucet.Config.skipped_optional_reloads_forever_defect`, `Faucet.Ranges.Ex.nested_range_defect`, `Faucet.Ports.ignoring_port_keeps_forwarding`, `Faucet.Ports.phys_portStatus`, `Faucet.Ports.connect_ports`, `Faucet.Ports.disconnect_ports`, `Faucet.Ports.added_down_port_forwards_defect`, `Faucet.Ports.blocked_report_toggles_defect`, `Faucet.Ports.deleted_port_stays_up_defect`, `Faucet.Ports.local_port_taken_down_defect`, `Faucet.Ports.missing_unknown_port_defect`, `Faucet.Service.rate_limit_whole_seconds_partial`, `Faucet.Service.rate_limit_fractional_defect`, `Faucet.Ports.vid_zero_defect`, `Faucet.Config.load_resets_applied`, `Faucet.Config.connect_applies`, `Faucet.Encoding.vid_present_roundtrip`, `Faucet.Encoding.vid_present_injective`, `Faucet.Encoding.short_header_raises`, `Faucet.Dot1x.Ex.lag_member_defect`, `Faucet.Tunnel.Ex.reverse_two_sources_defect`, `Faucet.Tunnel.Ex.stale_rule_defect`, `Faucet.Tunnel.Ex.single_maintain_allow_defect`, `Faucet.Tunnel.Ex.two_gotos_defect`, `Faucet.Tunnel.Ex.source_rules_defect`, `Faucet.Tunnel.Ex.source_priority_defect`, `Faucet.Pipeline.sent_forward`, `Faucet.Pipeline.site_forward`, `Faucet.Pipeline.id_lt`, `Faucet.Pipeline.id_unique`, `Faucet.Pipeline.site_announced`, `Faucet.Pipeline.announced_exist`, `Faucet.Pipeline.default_catches`, `Faucet.Pipeline.way_bounded`, `Faucet.Pipeline.no_infinite_way`, `Faucet.Pipeline.execAll_forward`, `Faucet.Actions.trim_preserves_output`, `Faucet.Actions.trimmed_actions_same_emits`, `Faucet.Actions.trim_is_tight`, `Faucet.Service.events_in_order`, `Faucet.Service.events_newest_kept`, `Faucet.Service.only_oldest_events_lost`, `Faucet.Service.event_lost_on_disconnect_defect`, `Faucet.Service.beacon_ttl_fits`, `Faucet.Actions.dedupe_exact`, `Faucet.Actions.cleanup_exact`, `Faucet.Actions.cleanup_keeps_first_copies`, `Faucet.Actions.buckets_same_emits`, `Faucet.Learn.loop_protect_stale_defect`, `Faucet.Learn.port_down_keeps_limit_defect`, `Faucet.Learn.egress_port_down_defect`, `Faucet.Learn.hairpin_port_down_defect`, `Faucet.Dot1x.dynamic_vlan`, `Faucet.Dot1x.dynamic_vlan_since_reload`, `Faucet.Tunnel.ids_not_user`, `Faucet.Tunnel.Ex.vids_order_defect`, `Faucet.Tunnel.Ex.same_id_defect`, `Faucet.Stack.stays_rightly`, `Faucet.Stack.own_port_learned`, `Faucet.Stack.reflection_ignored`, `Faucet.Stack.learned_from_stack`, `Faucet.Stack.Ex.gap_defect`, `Faucet.Stack.Ex.moved_host_defect`, `Faucet.Stack.Ex.reflected_copy_moves_host_defect`, `Faucet.Stack.Ex.parallel_unknown_defect`, `Faucet.Route.advertised_right`, `Faucet.Gauge.other_tables_kept`, `Faucet.Valid.Ex.mirror_in_vlan_defect`, `Faucet.Valid.Ex.one_sided_link_defect`, `Faucet.Valid.Ex.self_link_defect`, `Faucet.Valid.Ex.same_vip_twice_defect`, `Faucet.Features.rules_accepted_partial`, `Faucet.Features.reload_accepted_partial`, `Faucet.Features.route_rules_accepted_partial`, `Faucet.Features.Ex.classification_defect`, `Faucet.Features.Ex.priority_zero_defect`, `Faucet.Features.Ex.acl_on_vlan_and_port_defect`, `Faucet.Features.Ex.exact_acl_defect`, `Faucet.Features.Ex.exact_acl_fields_defect`, `Faucet.Features.Ex.many_rules_defect`, `Faucet.Features.Ex.metadata_unannounced_defect`, `Faucet.Multi.others_untouched`, `Faucet.Multi.unknown_switch_ignored`, `Faucet.Multi.not_running_ignored`, `Faucet.Multi.service_last_wins`, `Faucet.Multi.sent`, `Faucet.Lldp.Ex.shadowing_tlv_defect`, `Faucet.Acl.FEx.failover_group_is_vlan_group_defect`, `Faucet.Meters.Ex.other_meters_deleted_defect`, `Faucet.Meters.Ex.metered_rule_lost_defect`, `Faucet.Meters.Ex.stale_meter_defect`, `Faucet.Meters.Ex.same_id_defect`, `Faucet.Copro.Ex.overlapping_bases_defect`, `Faucet.Copro.Ex.large_vid_defect`, `Faucet.Copro.Ex.moved_base_defect`, `Faucet.Copro.Ex.added_port_defect`, `Faucet.Copro.Ex.former_coprocessor_defect`

**Classical.choice, Quot.sound, propext** (297 theorems): `Faucet.HostCache.host_table_consistent`, `Faucet.HostCache.host_table_refines_map`, `Faucet.HostCache.expiry_exact`, `Faucet.Learn.permanent_sticks`, `Faucet.Learn.vlan_limit_respected`, `Faucet.Learn.port_limit_respected_partial`, `Faucet.Learn.timeouts_ordered_partial`, `Faucet.Learn.learning_reflects_last_sighting`, `Faucet.Learn.move_cleans_switch`, `Faucet.Learn.accepted_installs_rules`, `Faucet.FlowReorder.reorder_preserves_flows_partial`, `Faucet.FlowReorder.reorder_preserves_groups_meters`, `Faucet.FlowReorder.reorder_preserves_switch_partial`, `Faucet.FlowReorder.reorder_staged`, `Faucet.FlowReorder.reorder_barriers`, `Faucet.FlowReorder.reorder_no_invention`, `Faucet.FlowReorder.reorder_nothing_lost`, `Faucet.FlowReorder.reorder_total`, `Faucet.FlowReorder.reorder_idempotent`, `Faucet.Flood.port_flood_delivers`, `Faucet.Flood.flood_table`, `Faucet.Flood.vlan_flood_safe`, `Faucet.Flood.port_flood_once`, `Faucet.Flood.flood_miss`, `Faucet.Flood.broadcast_delivered`, `Faucet.Flood.unicast_delivered`, `Faucet.Flood.Delivered.one_lag_member`, `Faucet.Flood.Delivered.one_external`, `Faucet.Acl.port_acl_decides`, `Faucet.Acl.vlan_acl_in_decides`, `Faucet.Acl.vlan_acl_out_decides`, `Faucet.Acl.dp_acl_decides`, `Faucet.Acl.first_rule_decides`, `Faucet.Acl.passes_iff_allow`, `Faucet.Acl.run_rule`, `Faucet.Acl.rule_confined_port`, `Faucet.Acl.rule_confined_vlan_partial`, `Faucet.Route.longest_prefix`, `Faucet.Route.gateway_routes_partial`, `Faucet.Route.no_stale_routes_partial`, `Faucet.Lacp.lacp_forwards_iff`, `Faucet.Lacp.pdu_decides_forwarding`, `Faucet.Lacp.up_means_synced`, `Faucet.Lacp.silent_member_expires`, `Faucet.Lacp.live_member_kept`, `Faucet.Lacp.switches_agree`, `Faucet.Lacp.at_most_one_nominated`, `Faucet.Stack.root_always_candidate`, `Faucet.Stack.healthy_root_kept`, `Faucet.Stack.root_change`, `Faucet.Stack.unhealthy_root_replaced`, `Faucet.Stack.root_order_independent`, `Faucet.Stack.new_root_best`, `Faucet.Stack.configured_root`, `Faucet.Stack.Ex.no_lacp_ranked_last_defect`, `Faucet.Stack.next_hops_arrive`, `Faucet.Stack.unreachable_no_port`, `Faucet.Stack.relative_hops_arrive`, `Faucet.Stack.one_uplink`, `Faucet.Stack.ends_agree`, `Faucet.Stack.no_cycle`, `Faucet.Stack.carrying_spans`, `Faucet.Stack.settled_of_history`, `Faucet.Stack.graph_of_history`, `Faucet.Stack.Reached.inv`, `Faucet.Stack.link_up_iff`, `Faucet.Stack.loss_takes_down`, `Faucet.Stack.miscabling_takes_down`, `Faucet.Stack.broadcast_once`, `Faucet.Reload.changes_exact`, `Faucet.Reload.self_no_changes`, `Faucet.Reload.changed_ports_exact`, `Faucet.Reload.acl_ports_exact`, `Faucet.Reload.identical_reload_silent`, `Faucet.Reload.reload_matches_cold_start_partial`, `Faucet.Reload.history_matches_cold_start_partial`, `Faucet.Reload.unchanged_port_untouched`, `Faucet.Reload.unchanged_vlan_untouched`, `Faucet.Config.running_config_was_valid`, `Faucet.Config.reload_follows_disk_partial`, `Faucet.Config.include_terminates`, `Faucet.Config.unchanged_files_same_config`, `Faucet.Config.finalized_assignment_refused`, `Faucet.Config.finalized_immutable_partial`, `Faucet.Config.finalized_dyn_assignable`, `Faucet.Config.finalized_dict_mutable_defect`, `Faucet.Config.unfinalize_defect`, `Faucet.Ranges.exactly_listed_partial`, `Faucet.Ranges.listed_configured`, `Faucet.Ranges.rejected_iff`, `Faucet.Ranges.ports_exact`, `Faucet.Ranges.interface_overrides`, `Faucet.Ranges.interface_alone`, `Faucet.Ranges.range_port_settings`, `Faucet.Ranges.ranges_rejected_iff`, `Faucet.Ports.up_is_last_report`, `Faucet.Ports.forwarding_follows_report_partial`, `Faucet.Ports.desc_up_partial`, `Faucet.Ports.desc_changes_forwarding`, `Faucet.Ports.desc_unchanged_untouched`, `Faucet.Ports.packet_in_changes_state_only_if`, `Faucet.Ports.packet_in_meta`, `Faucet.Ports.admissible_packet_in_handled`, `Faucet.Config.config_applied_fraction`, `Faucet.Config.applied_means_sent`, `Faucet.Encoding.vid_survives_wire`, `Faucet.Encoding.vid_in_mac_roundtrip`, `Faucet.Encoding.vid_in_mac_injective`, `Faucet.Encoding.dot1x_identity_injective`, `Faucet.Encoding.dot1x_identity_recovers`, `Faucet.Encoding.dot1x_identity_wide_port_defect`, `Faucet.Encoding.egress_metadata_identifies_partial`, `Faucet.Encoding.egress_metadata_within_mask`, `Faucet.Encoding.egress_metadata_wide_port_defect`, `Faucet.Encoding.fragments_rejected_partial`, `Faucet.Encoding.complete_accepted`, `Faucet.Encoding.ipv4_parseable_iff`, `Faucet.Route.bgp_follows_partial`, `Faucet.Dot1x.logged_out_rules`, `Faucet.Dot1x.logged_out_dropped`, `Faucet.Dot1x.no_rule_for_client`, `Faucet.Tunnel.tunnel_delivers`, `Faucet.Tunnel.tunnel_delivers_exits`, `Faucet.Tunnel.tunnel_delivers_dp`, `Faucet.Tunnel.tunnel_and_allow`, `Faucet.Tunnel.tunnel_single`, `Faucet.Tunnel.tunnel_back`, `Faucet.Tunnel.update_installs`, `Faucet.Tunnel.update_installs_back`, `Faucet.Tunnel.update_installs_source`, `Faucet.Tunnel.Ex.inject_defect`, `Faucet.Pipeline.processing_terminates`, `Faucet.Pipeline.terminates`, `Faucet.Actions.trimmed_rule_same_output`, `Faucet.Service.beacon_round`, `Faucet.Service.beacons_spaced`, `Faucet.Service.beacon_rounds_spaced`, `Faucet.Flood.longer_mask_higher_priority`, `Faucet.Flood.reserved_dropped`, `Faucet.Flood.most_specific_row`, `Faucet.Flood.row_priority_iff`, `Faucet.Learn.dst_rules_follow_hosts_partial`, `Faucet.Learn.src_rules_follow_hosts_partial`, `Faucet.Learn.port_down_silences`, `Faucet.Learn.port_removed_forgets`, `Faucet.Route.router_address_partial`, `Faucet.Dot1x.logged_in_admitted`, `Faucet.Dot1x.eapol_redirected`, `Faucet.Dot1x.eapol_answered`, `Faucet.Tunnel.vids_agree`, `Faucet.Tunnel.vids_apart`, `Faucet.Tunnel.firstUnused_spec`, `Faucet.L2.vlan_isolation_partial`, `Faucet.L2.unknown_port_silent`, `Faucet.L2.hosts_on_members_partial`, `Faucet.L2.known_was_heard`, `Faucet.L2.Ex.tagged_lacp_breaks_isolation_defect`, `Faucet.L2.delivery_partial`, `Faucet.L2.known_host_gets_partial`, `Faucet.L2.unknown_is_flooded_partial`, `Faucet.L2.no_return_partial`, `Faucet.L2.new_source_told_partial`, `Faucet.L2.unlimited_never_bans`, `Faucet.L2.isolation_across_reloads_partial`, `Faucet.L2.removed_port_silent_partial`, `Faucet.L2.delivery_across_reloads_partial`, `Faucet.L2.known_host_across_reloads_partial`, `Faucet.L2.unknown_is_flooded_across_reloads_partial`, `Faucet.L2.new_source_across_reloads_partial`, `Faucet.L2.hosts_across_reloads_partial`, `Faucet.L2.reload_never_raises_partial`, `Faucet.L2.kept_hosts_partial`, `Faucet.L2.kept_host_rules_partial`, `Faucet.L2.unlimited_across_reloads_never_bans_partial`, `Faucet.L2.same_config_is_free`, `Faucet.L2.Ex.lag_port_keeps_vlan_defect`, `Faucet.L2.Ex.late_packet_defect`, `Faucet.L2.Ex.added_port_dead_defect`, `Faucet.L2.Ex.old_mirror_gets_floods_defect`, `Faucet.L2.Ex.old_gateway_dropped_defect`, `Faucet.L2.Ex.forgotten_host_defect`, `Faucet.Stack.hears_knows`, `Faucet.Stack.unicast_once_partial`, `Faucet.Stack.unicast_in_stack_partial`, `Faucet.Stack.known_in_stack_partial`, `Faucet.Route.answers_for_itself`, `Faucet.Route.silent_unless_asked`, `Faucet.Route.answers_unanswered_partial`, `Faucet.Route.arp_answered_partial`, `Faucet.Route.nd_answered_partial`, `Faucet.Route.ping_answered_partial`, `Faucet.Route.ping6_answered_partial`, `Faucet.Route.expired_reported_partial`, `Faucet.Route.expired6_reported_partial`, `Faucet.Route.solicitation_answered_partial`, `Faucet.Route.answers_memoryless`, `Faucet.Route.advertised_once`, `Faucet.Route.asker_known`, `Faucet.Route.Ex.large_ping_unanswered_defect`, `Faucet.Route.Ex.large_expired_unreported_defect`, `Faucet.Gauge.polled_once`, `Faucet.Gauge.asks_what_is_wanted_partial`, `Faucet.Gauge.next_request`, `Faucet.Gauge.first_request`, `Faucet.Gauge.reply_recorded`, `Faucet.Gauge.late_reply_dropped_partial`, `Faucet.Gauge.status_right`, `Faucet.Gauge.counts_exported_partial`, `Faucet.Gauge.second_reply_exported`, `Faucet.Gauge.counts_were_reported`, `Faucet.Gauge.dump_fresh`, `Faucet.Gauge.dumps_all_kept`, `Faucet.Gauge.Ex.meters_never_asked_defect`, `Faucet.Gauge.Ex.gone_flow_exported_defect`, `Faucet.Valid.switches_as_configured`, `Faucet.Valid.ports_as_configured`, `Faucet.Valid.vlan_exists_iff`, `Faucet.Valid.vlans_as_configured`, `Faucet.Valid.vlan_members`, `Faucet.Valid.mirrors_as_configured`, `Faucet.Valid.mirror_references_resolve`, `Faucet.Valid.output_only_iff`, `Faucet.Valid.interface_numbers`, `Faucet.Valid.native_not_tagged`, `Faucet.Valid.special_no_vlans_partial`, `Faucet.Valid.accepted_wf_partial`, `Faucet.Valid.accepted_isolation_partial`, `Faucet.Valid.routers_as_configured`, `Faucet.Valid.routers_used`, `Faucet.Valid.router_vips_apart_partial`, `Faucet.Valid.accepted_routing_partial`, `Faucet.Valid.stack_references_resolve`, `Faucet.Valid.accepted_cabling_partial`, `Faucet.Valid.stack_has_root`, `Faucet.Valid.dpids_distinct`, `Faucet.Valid.accepted_iff`, `Faucet.Routed.routed_delivery_partial`, `Faucet.Routed.next_hop_gets_partial`, `Faucet.Routed.routed_only_partial`, `Faucet.Routed.routed_isolation_partial`, `Faucet.Routed.unrouted_delivery_partial`, `Faucet.Routed.unrouted_source_told_partial`, `Faucet.Routed.unlimited_no_ban`, `Faucet.Routed.arp_for_router_partial`, `Faucet.Routed.arp_switched_partial`, `Faucet.Routed.to_faucet_partial`, `Faucet.Routed.no_route_drops_partial`, `Faucet.Routed.Ex.routed_lost_defect`, `Faucet.Routed.Ex.same_trunk_not_routed_defect`, `Faucet.Routed.Ex.arp_not_learned_defect`, `Faucet.Routed.Ex.arp_other_vlan_defect`, `Faucet.Routed.Ex.ping_needs_proactive_defect`, `Faucet.Routed.Ex.over_limit_routed_defect`, `Faucet.Features.rules_fit_partial`, `Faucet.Features.reload_fits_partial`, `Faucet.Features.route_rules_fit_partial`, `Faucet.Features.vip_rules_fit_partial`, `Faucet.Features.port_acls_fit_partial`, `Faucet.Features.vlan_acls_fit_partial`, `Faucet.Features.dp_acls_fit_partial`, `Faucet.AclSw.acls_then_switching_partial`, `Faucet.AclSw.acls_isolate_partial`, `Faucet.AclSw.heard_passed_partial`, `Faucet.AclSw.hosts_passed_partial`, `Faucet.AclSw.unlimited_never_bans`, `Faucet.Multi.every_switch_alone`, `Faucet.Multi.running_iff_connected`, `Faucet.Multi.event_handled`, `Faucet.Multi.service_reaches_every_switch`, `Faucet.Multi.every_switch_expires`, `Faucet.Multi.no_event_raises`, `Faucet.Multi.every_switch_isolates_partial`, `Faucet.Multi.every_switch_delivers_partial`, `Faucet.Lldp.beacon_identifies_sender_partial`, `Faucet.Lldp.beacons_differ_partial`, `Faucet.Lldp.others_say_nothing`, `Faucet.Lldp.right_cable_comes_up_partial`, `Faucet.Lldp.wrong_cable_goes_down_partial`, `Faucet.Lldp.others_change_nothing`, `Faucet.Lldp.beacon_refines`, `Faucet.Lldp.healthy_link_stays_up_partial`, `Faucet.Lldp.first_call_sends`, `Faucet.Metrics.counts_right`, `Faucet.Metrics.l2_port_right`, `Faucet.Metrics.learned_macs_right_partial`, `Faucet.Acl.failover_decides`, `Faucet.Acl.dp_acl_fails_over`, `Faucet.Dot1x.Id.login_at_own_port_partial`, `Faucet.Dot1x.Id.login_at_other_switch_defect`, `Faucet.Dot1x.Id.first_port_defect`, `Faucet.Meters.meters_as_configured_partial`, `Faucet.Meters.reload_drops_others`, `Faucet.Meters.metered_rules_lost`, `Faucet.Meters.metered_rules_kept`, `Faucet.Copro.coprocessor_output_partial`, `Faucet.Copro.coprocessor_inject_partial`, `Faucet.Copro.changed_coprocessor_output`

