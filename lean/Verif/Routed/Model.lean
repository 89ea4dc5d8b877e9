import Verif.L2.DeliverySpec
import Verif.Route.Props

/-!
# One standalone switch that also routes IPv4

The switch of the area `L2` with the IPv4 route manager of the area `Route`: `faucet/valve.py`, `faucet/valve_route.py`,
`faucet/valve_pipeline.py`. New here are the rules of the route manager outside the FIB table, and that everything happens
on one switch: packets are classified, routed and then forwarded in the VLAN of the next hop.

Not modelled: IPv6, global routing (`global_vlan`), and what `L2` and `Route` leave out. The messages of one event are sent
as two batches, first those of the switch manager and then those of the route manager; in the code they are one batch. The
two kinds never concern the same flow, and the delete of all flows at a cold start comes first in either case. The contents
of a packet that reaches FAUCET and what the route manager makes of it are not connected: any operation of the route
manager may happen at any time.
-/

namespace Faucet.Routed
open Faucet.OF
open Faucet.Learn (iInPort iEthDst iEthSrc iVlan)

/-- The configuration: `dp.vlans` with their IPv4 addresses, `dp.routers` and the options of the route manager,
`faucet/valve.py` 283-321. -/
structure RCfg where
  l2 : L2.Cfg
  vlans : List Route.Vlan
  routers : List Route.Router := []
  decTtl : Bool := true
  proactive : Bool := true
  neighborTimeout : Int := 30
  maxPerCycle : Int := 5
  maxRetries : Nat := 10
  maxBackoff : Int := 64

/-- `ipaddress.IPv4Address.is_link_local`: 169.254.0.0/16. -/
def linkLocal4 (ip : Nat) : Bool := ip / 65536 == 0xA9FE

/-- Match fields, `faucet/valve_of.py` 848-910. -/
def fIpProto : Nat := 10
def fIpv4Dst : Nat := 12
def fArpTpa : Nat := 23
def typeIp : Nat := 0x0800
def typeArp : Nat := 0x0806

/-- The table of `accept_to_l2_forwarding`, `faucet/valve_pipeline.py` 42-44 and 82-90. -/
def RCfg.outId (c : RCfg) : Nat := (c.l2.table (Pipeline.outTable c.l2.conf)).id

/-- The IPv4 route manager, `faucet/valve.py` 283-321. -/
def RCfg.mgr (c : RCfg) : Route.Mgr where
  width := 32
  ethType := typeIp
  ipDst := fIpv4Dst
  linkLocal := linkLocal4
  fib := c.l2.table .ipv4Fib
  vip := c.l2.table .vip
  toL2 := c.outId
  routers := c.routers
  globalVid := 0
  decTtl := c.decTtl
  proactive := c.proactive
  neighborTimeout := c.neighborTimeout
  maxPerCycle := c.maxPerCycle
  maxRetries := c.maxRetries
  maxBackoff := c.maxBackoff

def iType (t : Nat) : MatchItem := ⟨fEthType, t, none⟩
def iProto (n : Nat) : MatchItem := ⟨fIpProto, n, none⟩
def iTpa (ip : Nat) : MatchItem := ⟨fArpTpa, ip, none⟩

/-- `select_packets`, `faucet/valve_pipeline.py` 216-227. -/
def RCfg.select (c : RCfg) (target : Table) (items : List MatchItem) : OfMsg :=
  c.l2.classTable.flowadd items highPriority [.goto target.id]

/-- `flowcontroller` in the VIP table, `faucet/valve_table.py` 291-302. -/
def RCfg.vipCtrl (c : RCfg) (items : List MatchItem) (prio : Nat) : OfMsg :=
  (c.l2.table .vip).flowadd items prio [.apply [.output portController]]

/-- A rule of the VIP table with `_controller_and_flood`, `faucet/valve_route.py` 264-268. -/
def RCfg.vipBoth (c : RCfg) (items : List MatchItem) (prio : Nat) : OfMsg :=
  (c.l2.table .vip).flowadd items prio [.goto c.outId, .apply [.output portController]]

/-- `_add_faucet_vip_nd`, `faucet/valve_route.py` 1006-1045: ARP for the address, ARP to the router, other ARP. -/
def RCfg.vipNd (c : RCfg) (v : Route.Vlan) (x : Route.Vip) : List OfMsg :=
  [c.select (c.l2.table .vip) [iType typeArp, iVlan v.vid],
   c.vipCtrl [iEthDst L2.broadcastMac, iType typeArp, iTpa x.ip] (Route.lpmPriority + 32),
   c.vipCtrl [iEthDst v.mac, iType typeArp] (Route.lpmPriority + 32),
   (c.l2.table .vip).flowadd [iType typeArp] (Route.lpmPriority + 31) [.goto c.outId]]

/-- The rules of the VIP table of `_add_faucet_fib_to_vip`, `faucet/valve_route.py` 445-486: ICMP to us, other ICMP, other IP
to us, other IP. -/
def RCfg.vipIp (c : RCfg) (v : Route.Vlan) (x : Route.Vip) : List OfMsg :=
  if c.proactive && !linkLocal4 x.ip then
    [c.vipCtrl [iEthDst v.mac, iType typeIp, iProto 1] (Route.lpmPriority + 31),
     c.vipBoth [iType typeIp, iProto 1] (Route.lpmPriority + 30),
     c.vipCtrl [iEthDst v.mac, iType typeIp] (Route.lpmPriority + 29),
     c.vipBoth [iType typeIp] (Route.lpmPriority + 28)]
  else []

/-- `_add_faucet_fib_to_vip`, `faucet/valve_route.py` 407-486. The rules of the FIB are those of the area `Route`. -/
def RCfg.fibToVip (c : RCfg) (v : Route.Vlan) (x : Route.Vip) : List OfMsg :=
  c.select (c.l2.table .ipv4Fib) [iEthDst v.mac, iType typeIp, iVlan v.vid] :: c.mgr.vipFlows v x ++ c.vipIp v x

/-- `add_vlan`, `faucet/valve_route.py` 492-505. -/
def RCfg.addVlan (c : RCfg) (v : Route.Vlan) : List OfMsg := v.vips.flatMap (fun x => c.vipNd v x ++ c.fibToVip v x)

/-- The VLANs of a port. -/
def RCfg.vlansOf (c : RCfg) (p : L2.LPort) : List Route.Vlan := c.vlans.filter (fun v => p.vids.contains v.vid)

/-- What the route manager sends at an event: for all VLANs at a cold start (`faucet/valve.py` 516), for the VLANs of a port
that is added (`faucet/valve.py` 881-884). -/
def RCfg.evMsgs (c : RCfg) : L2.Ev → List OfMsg
  | .connect _ _ _ => c.vlans.flatMap c.addVlan
  | .portUp _ n _ =>
    match c.l2.find n with
    | some p => if p.enabled then (c.vlansOf p).flatMap c.addVlan else []
    | none => []
  | _ => []

/-- `VLAN.reset_caches`, `faucet/vlan.py` 293-300, of `DP.cold_start`, `faucet/dp.py` 344-349: neighbours are forgotten, routes
are not. -/
def resetCaches (st : Route.St) : Route.St := fun k => { st k with cache := [], unresHost := [], unresRoute := [] }

/-- The routing state after an event. -/
def evSt (st : Route.St) : L2.Ev → Route.St
  | .connect _ _ _ => resetCaches st
  | _ => st

/-- Controller with routing state, switch, and the packets that FAUCET was sent. -/
structure Sys where
  l2 : L2.Sys
  st : Route.St

/-- What is sent to a switch reaches it if it is connected. -/
def sendIf (running : Bool) (sw : Switch) (ms : List OfMsg) : Switch := if running then sw.execAll ms else sw

/-- **Runs.** As `L2.Run`, with the operations of the route manager, in any order. The routing state at the start is that of
the static routes. `P` are the prefixes that may be routed. -/
inductive Run (c : RCfg) (ok : Pkt → Prop) (P : Route.Net → Prop) : Sys → (Nat → Bool) → Prop
  | start {sw0 : Switch} {st0 : Route.St} {now up lag ms ctl sh bar out} : Route.Static c.mgr c.vlans P st0 → (∀ l, (sh l).Perm l) →
      c.l2.react L2.Ctl.init (.connect now up lag) = some (ms, ctl) → FlowReorder.reorder sh bar ms = some out →
      Run c ok P ⟨⟨ctl, (sw0.execAll out).execAll (c.evMsgs (.connect now up lag)), fun _ => False⟩, st0⟩ (fun i => up.contains i)
  | event {s u ev ms ctl sh bar out} : Run c ok P s u → (∀ l, (sh l).Perm l) → (∀ now k, ev = .packetIn now k → s.l2.seen k) →
      c.l2.react s.l2.ctl ev = some (ms, ctl) → FlowReorder.reorder sh bar ms = some out →
      Run c ok P ⟨⟨ctl, (s.l2.sw.execAll out).execAll (c.evMsgs ev), s.l2.seen⟩, evSt s.st ev⟩ (ev.upAfter u)
  | route {s u} (e : Route.Env) (o : Route.Op) : Run c ok P s u → (∀ l, (e.shuffle l).Perm l) → Route.Tame c.mgr c.vlans P s.st o →
      Run c ok P ⟨⟨s.l2.ctl, sendIf s.l2.ctl.running s.l2.sw (FlowReorder.deletesFirst (Route.flowMods (c.mgr.step e s.st o).2)), s.l2.seen⟩,
        (c.mgr.step e s.st o).1⟩ u
  | packet {s u k es} : Run c ok P s u → ok k → Proc s.l2.sw 0 k es →
      Run c ok P ⟨⟨s.l2.ctl, s.l2.sw, fun x => s.l2.seen x ∨ ∃ e ∈ es, e.port = portController ∧ x = L2.Emit.toPacketIn e⟩, s.st⟩ u
  | timeout {s u sl b} : Run c ok P s u → s.l2.sw.flows sl = some b → b.hard ≠ 0 ∨ b.idle ≠ 0 →
      Run c ok P ⟨⟨s.l2.ctl, ⟨fun x => if x = sl then none else s.l2.sw.flows x, s.l2.sw.groups, s.l2.sw.meters⟩, s.l2.seen⟩, s.st⟩ u

end Faucet.Routed
