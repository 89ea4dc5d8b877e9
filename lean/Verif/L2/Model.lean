import Verif.Pipeline.Msgs
import Verif.OpenFlow.Datapath

/-!
# One standalone switch, end to end

Everything FAUCET sends to a switch that is not in a stack and has no ACLs, routing, 802.1x, coprocessor or tunnels:
`faucet/valve.py`, `faucet/valve_switch_standalone.py`, `faucet/valve_pipeline.py`, `faucet/valve_lldp.py`,
`faucet/valve_outonly.py`. The rules are those of the areas `Pipeline`, `Learn` and `Flood`; here they are put together, with
the state of the ports and the host table, and with the packets that the switch sends to the controller.

Not modelled: meters, packet-outs (LACP and LLDP frames FAUCET sends itself), metrics and notifications. Which LACP and port
status messages lead to which events is in the areas `Lacp` and `Ports`: here any sequence of events may happen. A changed
configuration is in `ReloadModel`.
-/

namespace Faucet.L2
open Faucet.OF
open Faucet.Learn (iInPort iEthDst iEthSrc iVlan)

/-- A port, `faucet/port.py` 70-200 and 484-545. -/
structure LPort where
  number : Nat
  native : Option Nat := none
  tagged : List Nat := []
  /-- numbers of the ports to mirror to, `faucet/dp.py` 1017-1037 -/
  mirror : List Nat := []
  enabled : Bool := true
  hairpin : Bool := false
  hairpinUnicast : Bool := false
  permanentLearn : Bool := false
  loopProtect : Bool := false
  loopProtectExternal : Bool := false
  restricted : Bool := false
  unicastFlood : Bool := true
  countUntagMiss : Bool := false
  /-- bundle number, 0 for none -/
  lacp : Nat := 0
  receiveLldp : Bool := false
  outputOnly : Bool := false
  maxHosts : Nat := 255
deriving DecidableEq, Repr

/-- A VLAN, `faucet/vlan.py`. -/
structure LVlan where
  vid : Nat
  unicastFlood : Bool := true
  maxHosts : Nat := 255
  faucetMac : Nat := 0x0E0000000001
deriving DecidableEq, Repr

/-- The configuration of the datapath, `faucet/dp.py` 62-180. -/
structure Cfg where
  /-- in the order of their numbers (`VLAN.reset_ports`, `faucet/vlan.py` 302-318) -/
  ports : List LPort
  vlans : List LVlan
  egressPipeline : Bool := false
  useClassification : Bool := false
  /-- some VLAN has an IPv4 address (`faucet_vips`): the FIB and VIP tables are there, `faucet/dp.py` 541-547. What is put into
  them beyond the default rules is in the area `Routed`. -/
  ipv4 : Bool := false
  combinatorial : Bool := false
  groupTable : Bool := false
  restrictedBcast : Bool := false
  dropBroadcastSource : Bool := true
  dropSpoofedFaucetMac : Bool := true
  /-- `dp.high_priority` and `dp.highest_priority`, `faucet/dp.py` -/
  dpHigh : Nat := 9001
  dpHighest : Nat := 9099
  learnTimeout : Nat := 300
  learnJitter : Nat := 51
  guard : Nat := 150
  learnBan : Nat := 51
  idleDst : Bool := true
  useIdleTimeout : Bool := false
  macHash : Nat → Int := fun m => m

/-- The dynamic state of a port: `dyn_phys_up`, `is_port_selected()`, `is_actor_up()`. -/
structure Dyn where
  physUp : Bool := false
  selected : Bool := false
  actorUp : Bool := false
deriving DecidableEq, Repr

/-- The port with a number. -/
def Cfg.find (c : Cfg) (n : Nat) : Option LPort := c.ports.find? (fun p => p.number == n)

/-- The VLAN with a VID. -/
def Cfg.vlan (c : Cfg) (vid : Nat) : Option LVlan := c.vlans.find? (fun v => v.vid == vid)

/-- `Port.vlans()`, `faucet/port.py` 497-509, without 802.1x. -/
def LPort.vids (p : LPort) : List Nat := p.native.toList ++ p.tagged

/-- `loop_protect_external` on some port, `faucet/dp.py` 1353-1357. -/
def Cfg.hasExternals (c : Cfg) : Bool := c.ports.any (fun p => p.loopProtectExternal)

/-- `hairpin_ports` is not empty, `faucet/dp.py` 813-814. -/
def Cfg.hasHairpin (c : Cfg) : Bool := c.ports.any (fun p => p.hairpin || p.hairpinUnicast)

/-- The tables the datapath has, `faucet/dp.py` 521-658. -/
def Cfg.conf (c : Cfg) : Pipeline.Conf where
  egress := c.egressPipeline
  hairpin := c.hasHairpin
  classification := c.useClassification
  ipv4 := c.ipv4

def Cfg.table (c : Cfg) (t : Pipeline.Tbl) : Table := ⟨Pipeline.idOf c.conf t, 0⟩

def Cfg.classTable (c : Cfg) : Table := c.table (Pipeline.classTable c.conf)

/-! ## What the managers are given, `faucet/valve.py` 195-340 -/

def LPort.toHost (p : LPort) : HostCache.Port where
  number := p.number
  permanentLearn := p.permanentLearn
  loopProtect := p.loopProtect
  lacp := p.lacp
  hairpin := p.hairpin
  hairpinUnicast := p.hairpinUnicast
  maxHosts := p.maxHosts

def Cfg.hostPort (c : Cfg) (n : Nat) : HostCache.Port :=
  match c.find n with
  | some p => p.toHost
  | none => (LPort.mk n none [] [] true false false false false false false true false 0 false false 0).toHost

def Cfg.portVids (c : Cfg) (n : Nat) : List Nat :=
  match c.find n with
  | some p => p.vids
  | none => []

def Cfg.isExternal (c : Cfg) (n : Nat) : Bool := c.ports.any (fun p => p.number == n && p.loopProtectExternal)

/-- `VLAN.port_is_untagged`, `faucet/vlan.py`. -/
def Cfg.isUntagged (c : Cfg) (vid n : Nat) : Bool := c.ports.any (fun p => p.number == n && p.native == some vid)

def Cfg.mirrors (c : Cfg) (n : Nat) : List Nat :=
  match c.find n with
  | some p => p.mirror
  | none => []

def Cfg.vlanMax (c : Cfg) (vid : Nat) : Nat :=
  match c.vlan vid with
  | some v => v.maxHosts
  | none => 0

def Cfg.hairpinTable (c : Cfg) : Option Table := if c.hasHairpin then some (c.table .hairpin) else none

def Cfg.egressTo (c : Cfg) : Option Nat :=
  if c.egressPipeline then some (Pipeline.idOf c.conf (Pipeline.outputTo c.conf)) else none

def Cfg.learn (c : Cfg) : Learn.Cfg where
  port := c.hostPort
  portVlans := c.portVids
  loopProtectExternal := c.isExternal
  untagged := c.isUntagged
  mirror := c.mirrors
  vlanMax := c.vlanMax
  learnTimeout := c.learnTimeout
  learnJitter := c.learnJitter
  guard := c.guard
  learnBan := c.learnBan
  idleDst := c.idleDst
  hasExternals := c.hasExternals
  flowRemoved := c.useIdleTimeout
  macHash := c.macHash
  ethSrc := c.table .ethSrc
  ethDst := c.table .ethDst
  hairpin := c.hairpinTable
  classification := c.classTable
  egress := c.egressTo

def Cfg.flood (c : Cfg) : Flood.FCfg where
  table := c.table .flood
  combinatorial := c.combinatorial
  useGroups := c.groupTable
  restrictedBcast := c.restrictedBcast

def fport (d : Nat → Dyn) (p : LPort) : Flood.FPort where
  number := p.number
  hairpin := p.hairpin
  mirror := p.mirror
  lacp := p.lacp
  selected := (d p.number).selected
  actorUp := (d p.number).actorUp
  physUp := (d p.number).physUp
  external := p.loopProtectExternal
  restricted := p.restricted
  unicastFlood := p.unicastFlood

/-- `VLAN.reset_ports`, `faucet/vlan.py` 302-318. -/
def Cfg.fvlan (c : Cfg) (d : Nat → Dyn) (v : LVlan) : Flood.FVlan where
  vid := v.vid
  tagged := (c.ports.filter (fun p => p.tagged.contains v.vid)).map (fport d)
  untagged := (c.ports.filter (fun p => p.native == some v.vid)).map (fport d)
  unicastFlood := v.unicastFlood

/-! ## Messages -/

/-- `filter_packets`, `faucet/valve_pipeline.py` 197-211. -/
def Cfg.filterPackets (c : Cfg) (items : List MatchItem) (offset : Nat := 0) : OfMsg :=
  c.classTable.flowdrop items (filterPriority + offset)

/-- `mac.BROADCAST_STR` and `ECTP_ETH_TYPE`, `faucet/valve_of.py`. -/
def broadcastMac : Nat := 0xFFFFFFFFFFFF
def ectpType : Nat := 0x9000

/-- `ValvePipeline.initialise_tables`, `faucet/valve_pipeline.py` 143-158. -/
def Cfg.pipelineInit (c : Cfg) : List OfMsg :=
  (if c.dropBroadcastSource then [c.filterPackets [iEthSrc broadcastMac]] else [])
    ++ [c.filterPackets [⟨fEthType, ectpType, none⟩] 10]

/-- `_delete_all_valve_flows` and `_add_default_flows`, `faucet/valve.py` 382-433. -/
def Cfg.defaults (c : Cfg) : List OfMsg :=
  [(⟨tableAll, 0⟩ : Table).flowdel []]
    ++ (if c.groupTable then [OfMsg.group ⟨.delete, none, []⟩] else [])
    ++ (Pipeline.tables c.conf).flatMap (fun t => (Pipeline.defaultFlow c.conf t).toList)

/-- `add_drop_spoofed_faucet_mac_rules` and `add_vlan`, `faucet/valve_switch_standalone.py` 520-539. -/
def Cfg.addVlan (c : Cfg) (d : Nat → Dyn) (cold : Bool) (v : LVlan) : List OfMsg :=
  (if c.dropSpoofedFaucetMac then [c.filterPackets [iEthSrc v.faucetMac]] else [])
    ++ (Pipeline.unknownFlow c.conf v.vid).toList
    ++ Flood.floodRules c.flood (c.fvlan d v) cold

/-- `update_vlan`, `faucet/valve_switch_standalone.py` 550-551. -/
def Cfg.updateVlan (c : Cfg) (d : Nat → Dyn) (v : LVlan) : List OfMsg :=
  Flood.floodRules c.flood (c.fvlan d v) false true

/-- The VLANs of a port. `add_vlans` and the loop over `vlans_with_deleted_ports` go over a set or tuple of VLANs. -/
def Cfg.vlansOf (c : Cfg) (p : LPort) : List LVlan := p.vids.filterMap c.vlan

/-- The external forwarding flag, `faucet/valve_switch_standalone.py` 563-567. -/
def Cfg.extFlag (c : Cfg) (p : LPort) : Option Nat :=
  if c.hasExternals then some (if p.loopProtectExternal then pcpNonExt else pcpExt) else none

/-- The VLAN rule of a port, as `_port_add_vlan_rules` makes it, `faucet/valve_switch_standalone.py` 557-578. -/
def Cfg.portVlan (c : Cfg) (p : LPort) (push : Bool) (vid : Nat) : Pipeline.PortVlan where
  vid := vid
  port := p.number
  mirror := p.mirror
  push := push
  ext := c.extFlag p

def Cfg.vlanRule (c : Cfg) (p : LPort) (push : Bool) (vid : Nat) : List OfMsg :=
  (Pipeline.portVlanFlow c.conf (c.portVlan p push vid)).toList

/-- `NullVLAN`: untagged packets. -/
def iUntagged : MatchItem := ⟨fVlanVid, 0, none⟩

/-- `SLOW_PROTOCOL_MULTICAST`, `ETH_TYPE_SLOW`. -/
def slowMac : Nat := 0x0180C2000002
def slowType : Nat := 0x8809

/-- `_lacp_match`, `faucet/valve_switch_standalone.py` 593-598. -/
def lacpItems (n : Nat) : List MatchItem := [iInPort n, iEthDst slowMac, ⟨fEthType, slowType, none⟩]

/-- `LLDP_MAC_NEAREST_BRIDGE`, `BRIDGE_GROUP_MASK`, `ETH_TYPE_LLDP`. -/
def lldpMac : Nat := 0x0180C200000E
def bridgeMask : Nat := 0xFFFFFFFFFFF0
def lldpType : Nat := 0x88CC

/-- `_lldp_match`, `faucet/valve_lldp.py` 51-57. -/
def lldpItems (n : Nat) : List MatchItem := [iInPort n, ⟨fEthDst, lldpMac, some bridgeMask⟩, ⟨fEthType, lldpType, none⟩]

/-- `flowcontroller` without other instructions, `faucet/valve_table.py` 291-302. -/
def Table.toController (t : Table) (items : List MatchItem) (prio : Nat) : OfMsg :=
  t.flowadd items prio [.apply [.output portController]]

/-- Lines 606-620: rule for untagged packets. -/
def Cfg.untaggedRule (c : Cfg) (p : LPort) : List OfMsg :=
  match p.native with
  | some vid => c.vlanRule p true vid
  | none => if p.countUntagMiss then [(c.table .vlan).flowdrop [iInPort p.number, iUntagged] lowPriority] else []

/-- `add_port`, `faucet/valve_switch_standalone.py` 600-628. -/
def Cfg.switchAdd (c : Cfg) (p : LPort) : List OfMsg :=
  if p.vids = [] then []
  else p.tagged.flatMap (c.vlanRule p false) ++ c.untaggedRule p
    ++ (if p.lacp ≠ 0 then [Table.toController (c.table .vlan) (lacpItems p.number) c.dpHighest] else [])

/-- `del_port`, `faucet/valve_switch_standalone.py` 642-667. -/
def Cfg.switchDel (c : Cfg) (p : LPort) : List OfMsg :=
  if p.vids = [] then []
  else Learn.delHostFlows c.learn p.number
    ++ (if p.native.isSome || p.countUntagMiss then [(c.table .vlan).flowdel [iInPort p.number, iUntagged] lowPriority] else [])
    ++ p.tagged.map (fun vid => (c.table .vlan).flowdel [iInPort p.number, iVlan vid] lowPriority)
    ++ (if p.lacp ≠ 0 then [(c.table .vlan).flowdel (lacpItems p.number) c.dpHighest] else [])

/-- `_add_egress_table_rule`, `faucet/valve_pipeline.py` 160-178; the match is in OXM order. -/
def Cfg.egressRule (c : Cfg) (p : LPort) (pop : Bool) (vid : Nat) : OfMsg :=
  (c.table .egress).flowadd
    [⟨fMetadata, (Learn.egressMetadata p.number vid).1, some (Learn.egressMetadata p.number vid).2⟩, iVlan vid] c.dpHigh
    [.apply (p.mirror.map .output ++ (if pop then [.popVlan] else []) ++ [.output p.number])]

/-- `ValvePipeline.add_port`, `faucet/valve_pipeline.py` 180-188. -/
def Cfg.egressAdd (c : Cfg) (p : LPort) : List OfMsg :=
  if c.egressPipeline then p.tagged.map (c.egressRule p false) ++ p.native.toList.map (c.egressRule p true) else []

/-- `PORT_METADATA_MASK`, `faucet/faucet_metadata.py`. -/
def portMetaMask : Nat := 0xfff

/-- `ValvePipeline.del_port`, `faucet/valve_pipeline.py` 190-203. -/
def Cfg.egressDel (c : Cfg) (p : LPort) : List OfMsg :=
  if c.egressPipeline then
    [(c.table .egress).flowdel [⟨fMetadata, p.number &&& portMetaMask, some portMetaMask⟩]]
  else []

/-- `ValveLLDPManager.add_port` and `del_port`, `faucet/valve_lldp.py` 59-80. -/
def Cfg.lldpAdd (c : Cfg) (p : LPort) : List OfMsg :=
  if p.receiveLldp then [Table.toController (c.table .vlan) (lldpItems p.number) c.dpHighest] else []

def Cfg.lldpDel (c : Cfg) (p : LPort) : List OfMsg :=
  if p.receiveLldp then [(c.table .vlan).flowdel (lldpItems p.number) c.dpHighest] else []

/-- `OutputOnlyManager.add_port` and `del_port`, `faucet/valve_outonly.py` 30-50. -/
def Cfg.outOnlyAdd (c : Cfg) (p : LPort) : List OfMsg :=
  if p.outputOnly then [(c.table .vlan).flowdrop [iInPort p.number] c.dpHighest] else []

def Cfg.outOnlyDel (c : Cfg) (p : LPort) : List OfMsg :=
  if p.outputOnly then [(c.table .vlan).flowdel [iInPort p.number] c.dpHighest] else []

/-- `manager.add_port(port)` for every manager, `faucet/valve.py` 868-869. -/
def Cfg.portAdd (c : Cfg) (p : LPort) : List OfMsg := c.egressAdd p ++ c.switchAdd p ++ c.lldpAdd p ++ c.outOnlyAdd p

/-- `manager.del_port(port)` for every manager, `faucet/valve.py` 836-837. -/
def Cfg.portDel (c : Cfg) (p : LPort) : List OfMsg := c.egressDel p ++ c.switchDel p ++ c.lldpDel p ++ c.outOnlyDel p

/-- `enable_forwarding`, `disable_forwarding`, `faucet/valve_switch_standalone.py` 1168-1187. -/
def Cfg.enableForwarding (c : Cfg) (p : LPort) : OfMsg := (c.table .vlan).flowdel [iInPort p.number] c.dpHigh none true
def Cfg.disableForwarding (c : Cfg) (p : LPort) : OfMsg := (c.table .vlan).flowdrop [iInPort p.number] c.dpHigh

/-- The messages of `lacp_update` when the state of the port in its bundle has changed, `faucet/valve.py` 990-1004; the
dynamic state is the new one. -/
def Cfg.lagMsgs (c : Cfg) (d : Nat → Dyn) (cold : Bool) (p : LPort) : List OfMsg :=
  if (d p.number).selected && (d p.number).actorUp then
    c.enableForwarding p :: (c.vlansOf p).flatMap (c.addVlan d false)
  else c.disableForwarding p ::
    (if cold then [] else c.switchDel p ++ c.switchAdd p ++ (c.vlansOf p).flatMap (c.addVlan d false))

/-! ## The controller -/

structure Ctl where
  running : Bool
  dyn : Nat → Dyn
  learn : Learn.St
  /-- `dyn_up_port_nos` -/
  known : Nat → Bool

def Ctl.init : Ctl := ⟨false, fun _ => {}, Learn.St.init, fun _ => false⟩

/-- What `lacp_update` did to a port: nothing, or changed whether it is selected and whether its actor is up. -/
abbrev LagChange := Option (Bool × Bool)

/-- A packet that the switch sent to the controller. -/
structure PacketIn where
  port : Nat
  tags : List (Nat × Nat)
  src : Nat
deriving DecidableEq, Repr

inductive Ev where
  /-- the switch connects, with these ports up -/
  | connect (now : Int) (up : List Nat) (lag : Nat → LagChange)
  | disconnect (now : Int) (lag : Nat → LagChange)
  | packetIn (now : Int) (k : PacketIn)
  /-- periodic expiry on a VLAN -/
  | expire (now : Int) (vid : Nat)
  | portUp (now : Int) (n : Nat) (lag : LagChange)
  | portDown (now : Int) (n : Nat) (lag : LagChange)
  /-- LACP changes the state of a port -/
  | lag (n : Nat) (selected actorUp : Bool)
  | srcRemoved (vid n m : Nat)
  | dstRemoved (now : Int) (vid m : Nat)

def setDyn (d : Nat → Dyn) (n : Nat) (x : Dyn) : Nat → Dyn := fun i => if i = n then x else d i

/-- The state of a port after a change in its bundle, and the link state. -/
def newDyn (old : Dyn) (up : Bool) : LagChange → Dyn
  | none => ⟨up, old.selected, old.actorUp⟩
  | some f => ⟨up, f.1, f.2⟩

/-- A LAG change happens only on ports with LACP, `faucet/valve.py` 871-872 and 922-923. -/
def LPort.change (p : LPort) (l : LagChange) : LagChange := if p.lacp = 0 then none else l

/-- The LAG messages of a port, if anything changed. -/
def Cfg.changeMsgs (c : Cfg) (d : Nat → Dyn) (cold : Bool) (p : LPort) : LagChange → List OfMsg
  | none => []
  | some _ => c.lagMsgs d cold p

/-- `_set_port_status` for all configured ports, `faucet/valve.py` 497-499. -/
def Cfg.updateAll (c : Cfg) (now : Int) (st : Learn.St) : Learn.St :=
  c.ports.foldl (fun s p => Learn.portUpdate s p.number now) st

/-- The port state after `ports_add(all_up_port_nos, cold_start=True)`. -/
def Cfg.connectDyn (c : Cfg) (d : Nat → Dyn) (up : List Nat) (lag : Nat → LagChange) : Nat → Dyn := fun n =>
  match c.find n with
  | none => d n
  | some p =>
    if up.contains n then
      (if p.enabled then newDyn (d n) true (p.change (lag n)) else newDyn (d n) true none)
    else d n

/-- One port of `ports_add` at cold start, `faucet/valve.py` 858-880. Bundle messages of a port are made before the state of
later ports changes; the model uses the final state, which only matters for flood rules that `add_vlans` then makes again. -/
def Cfg.connectPort (c : Cfg) (d : Nat → Dyn) (up : List Nat) (lag : Nat → LagChange) (p : LPort) : List OfMsg :=
  if up.contains p.number && p.enabled then
    c.portAdd p ++ c.changeMsgs d true p (p.change (lag p.number))
  else []

/-- `_cold_start_ports_and_vlans`, `faucet/valve.py` 486-517; the dynamic state is the new one. -/
def Cfg.connectMsgs (c : Cfg) (d : Nat → Dyn) (up : List Nat) (lag : Nat → LagChange) : List OfMsg :=
  c.defaults ++ c.pipelineInit ++ Flood.initialise c.flood
    ++ c.ports.flatMap (c.connectPort d up lag) ++ c.vlans.flatMap (c.addVlan d true)

/-- The port state after `ports_delete(self.dp.ports.keys())`. -/
def Cfg.disconnectDyn (c : Cfg) (d : Nat → Dyn) (lag : Nat → LagChange) : Nat → Dyn := fun n =>
  match c.find n with
  | none => d n
  | some p => newDyn (d n) false (p.change (lag n))

/-- The host table after `ports_delete` of every port. -/
def Cfg.forgetAll (c : Cfg) : List LPort → Learn.St → Option Learn.St
  | [], st => some st
  | p :: ps, st => (Learn.portDelete c.learn st p.number).bind (fun r => c.forgetAll ps r.2)

/-- `mac_addr_is_unicast` and not `mac_addr_all_zeros`, `faucet/valve_packet.py`. -/
def goodSource (m : Nat) : Bool := !m.testBit 40 && m != 0

/-- The VLAN packet that `parse_pkt_meta` accepts, `faucet/valve.py` 1180-1290: the datapath runs, the port is configured,
the VLAN known, the source a unicast address. It is not checked that the port is in the VLAN. -/
def Cfg.accepted (c : Cfg) (running : Bool) (k : PacketIn) : Option Nat :=
  match k.tags with
  | [] => none
  | t :: _ =>
    if running && (c.find k.port).isSome && (c.vlan t.1).isSome && goodSource k.src then some t.1 else none

/-- `ports_add([n])`, `faucet/valve.py` 845-885. -/
def Cfg.upMsgs (c : Cfg) (d : Nat → Dyn) (p : LPort) (l : LagChange) : List OfMsg :=
  if p.enabled then c.portAdd p ++ c.changeMsgs d false p (p.change l) ++ (c.vlansOf p).flatMap (c.addVlan d false) else []

/-- `ports_delete([n], keep_cache=True)`, `faucet/valve.py` 897-933. -/
def Cfg.downMsgs (c : Cfg) (d : Nat → Dyn) (p : LPort) (l : LagChange) : List OfMsg :=
  (if p.lacp ≠ 0 then c.changeMsgs d false p l else c.portDel p) ++ (c.vlansOf p).flatMap (c.updateVlan d)

def Ctl.withLearn (s : Ctl) (r : List OfMsg × Learn.St) : List OfMsg × Ctl := (r.1, ⟨s.running, s.dyn, r.2, s.known⟩)

/-- `_set_port_status`, `faucet/valve.py` 531-541: the ports that are known to be up, configured or not. -/
def Ctl.setKnown (s : Ctl) (n : Nat) (b : Bool) : Ctl := ⟨s.running, s.dyn, s.learn, fun i => if i = n then b else s.known i⟩

/-- `_set_port_status` for all configured ports. -/
def Cfg.knownAfter (c : Cfg) (k : Nat → Bool) (up : List Nat) : Nat → Bool := fun i =>
  if (c.find i).isSome then up.contains i else k i

/-- The state when a port goes up or down. -/
def Ctl.portChange (s : Ctl) (p : LPort) (now : Int) (x : Dyn) (b : Bool) : Ctl :=
  ⟨s.running, setDyn s.dyn p.number x, Learn.portUpdate s.learn p.number now, fun i => if i = p.number then b else s.known i⟩

/-- Messages to send and new state; `none` is an exception. -/
def Cfg.react (c : Cfg) (s : Ctl) : Ev → Option (List OfMsg × Ctl)
  | .connect now up lag =>
    let d := c.connectDyn s.dyn up lag
    some (c.connectMsgs d up lag, ⟨true, d, Learn.coldStart (c.updateAll now s.learn) now, c.knownAfter s.known up⟩)
  | .disconnect now lag =>
    (c.forgetAll c.ports (c.updateAll now s.learn)).map (fun st => ([], ⟨false, c.disconnectDyn s.dyn lag, st, c.knownAfter s.known []⟩))
  | .packetIn now k =>
    match c.accepted s.running k with
    | some vid => (Learn.rcvPacket c.learn s.learn now (c.hostPort k.port) vid k.src).map s.withLearn
    | none => some ([], s)
  | .expire now vid => if s.running then (Learn.sweep c.learn s.learn now vid).map s.withLearn else some ([], s)
  | .portUp now n lag =>
    match c.find n with
    | some p =>
      let s' := s.portChange p now (newDyn (s.dyn n) true (if p.enabled then p.change lag else none)) true
      some (c.upMsgs s'.dyn p lag, s')
    | none => some ([], s.setKnown n true)
  | .portDown now n lag =>
    match c.find n with
    | some p =>
      let s' := s.portChange p now (newDyn (s.dyn n) false (p.change lag)) false
      some (c.downMsgs s'.dyn p lag, s')
    | none => some ([], s.setKnown n false)
  | .lag n sel act =>
    match c.find n with
    | some p =>
      if p.lacp ≠ 0 then
        let d := setDyn s.dyn n ⟨(s.dyn n).physUp, sel, act⟩
        some (c.lagMsgs d false p, ⟨s.running, d, s.learn, s.known⟩)
      else some ([], s)
    | none => some ([], s)
  | .srcRemoved vid n m => (Learn.react c.learn s.learn (.srcRemoved vid n m)).map s.withLearn
  | .dstRemoved now vid m => (Learn.react c.learn s.learn (.dstRemoved now vid m)).map s.withLearn

/-! ## Controller, switch and packets -/

structure Sys where
  ctl : Ctl
  sw : Switch
  /-- the packets that the switch ever sent to the controller -/
  seen : PacketIn → Prop

/-- The copy of a packet that goes to the controller. -/
def Emit.toPacketIn (e : Emit) : PacketIn := ⟨(e.hdr fInPort).getD 0, e.tags, (e.hdr fEthSrc).getD 0⟩

/-- **Reachable states.** The switch may start with any flows and groups (left by whoever used it before) and first connects.
Then, in any order: events; packets of any kind (those that `ok` allows) come in, and their copies for the controller may
be delivered later, any number of times; flows with a timeout time out. Messages go through `valve_flowreorder`
(`faucet/valve.py` 1822-1855), in any order of its sets, with or without barriers. -/
inductive Reach (c : Cfg) (ok : Pkt → Prop) : Sys → Prop
  | start {sw0 : Switch} {now up lag ms ctl sh bar out} : (∀ l, (sh l).Perm l) →
      c.react Ctl.init (.connect now up lag) = some (ms, ctl) → FlowReorder.reorder sh bar ms = some out →
      Reach c ok ⟨ctl, Switch.execAll sw0 out, fun _ => False⟩
  | event {s ev ms ctl sh bar out} : Reach c ok s → (∀ l, (sh l).Perm l) → (∀ now k, ev = .packetIn now k → s.seen k) →
      c.react s.ctl ev = some (ms, ctl) → FlowReorder.reorder sh bar ms = some out →
      Reach c ok ⟨ctl, s.sw.execAll out, s.seen⟩
  | packet {s k es} : Reach c ok s → ok k → Proc s.sw 0 k es →
      Reach c ok ⟨s.ctl, s.sw, fun x => s.seen x ∨ ∃ e ∈ es, e.port = portController ∧ x = Emit.toPacketIn e⟩
  | timeout {s sl b} : Reach c ok s → s.sw.flows sl = some b → b.hard ≠ 0 ∨ b.idle ≠ 0 →
      Reach c ok ⟨s.ctl, ⟨fun x => if x = sl then none else s.sw.flows x, s.sw.groups, s.sw.meters⟩, s.seen⟩

end Faucet.L2
