import Verif.OpenFlow.Table
import Verif.Base.Dict

/-!
# Routing (`faucet/valve_route.py`, `faucet/vlan.py`, `faucet/router.py`, `faucet/faucet_bgp.py`)

A route manager handles one IP version. Addresses are numbers of `width` bits. Python's `ipaddress` and `pytricia` are
libraries: containment of an address in a network compares the masked address (`_BaseNetwork.__contains__`), and a
*network* is never "in" a network. `os_ken` masks the value of a masked match field. Times are integers.
-/

namespace Faucet.Route
open Faucet.OF Faucet

/-- `ipaddress.ip_network`: network address and prefix length. -/
structure Net where
  addr : Nat
  len : Nat
deriving DecidableEq, Repr

/-- `ipaddress.ip_interface`: a VIP with its prefix length. -/
structure Vip where
  ip : Nat
  len : Nat
deriving DecidableEq, Repr

/-- `netmask`. -/
def mask (w len : Nat) : Nat := 2 ^ w - 2 ^ (w - len)

/-- `ip in network`. -/
def Net.contains (w : Nat) (n : Net) (ip : Nat) : Bool := ip &&& mask w n.len == n.addr

/-- `ipaddress.ip_network(host)`. -/
def hostNet (w ip : Nat) : Net := ⟨ip, w⟩

/-- `ip_interface.network`. -/
def Vip.net (w : Nat) (v : Vip) : Net := ⟨v.ip &&& mask w v.len, v.len⟩

/-- `network.broadcast_address`. -/
def Net.broadcast (w : Nat) (n : Net) : Nat := n.addr + (2 ^ (w - n.len) - 1)

/-! ## Next hops: `NextHop`, `faucet/valve_route.py` 42-93 -/

structure NextHop where
  eth : Option Nat
  port : Option Nat
  cacheTime : Int
  retries : Nat := 0
  last : Option Int := none
  next : Option Int := none
deriving DecidableEq, Repr

/-- `NextHop.__init__`, `faucet/valve_route.py` 54-62. -/
def NextHop.new (eth port : Option Nat) (now : Int) : NextHop :=
  { eth := eth, port := port, cacheTime := now, next := if eth = none then some now else none }

/-- `NextHop.age`, `faucet/valve_route.py` 64-66. -/
def NextHop.age (n : NextHop) (now : Int) : Int := now - n.cacheTime

/-- `NextHop.dead`, `faucet/valve_route.py` 68-70. -/
def NextHop.dead (n : NextHop) (maxRetries : Nat) : Bool := maxRetries ≤ n.retries

/-- `NextHop.next_retry`, `faucet/valve_route.py` 72-79. `jitter` is `random.randint(0, self.resolve_retries)`. -/
def NextHop.nextRetry (n : NextHop) (now maxBackoff : Int) (jitter : Nat) : NextHop :=
  { n with retries := n.retries + 1, last := some now,
           next := some (now + min ((2 : Int) ^ (n.retries + 1) + jitter) maxBackoff) }

/-- `self.next_retry_time is None or self.next_retry_time < now`, `faucet/valve_route.py` 85. -/
def NextHop.retryDue (n : NextHop) (now : Int) : Bool :=
  match n.next with
  | none => true
  | some t => t < now

/-- `NextHop.resolution_due`, `faucet/valve_route.py` 81-87. -/
def NextHop.due (n : NextHop) (now maxAge : Int) : Bool :=
  if n.eth.isSome && n.age now < maxAge then false else n.retryDue now

/-! ## The routing state of a VLAN: `faucet/vlan.py` 180-186, 403-480 -/

/-- Python sets of which only membership matters. -/
def setAdd {α : Type} [DecidableEq α] (l : List α) (a : α) : List α := if a ∈ l then l else l ++ [a]
def setDel {α : Type} [DecidableEq α] (l : List α) (a : α) : List α := l.filter (fun b => b ≠ a)

/-- The routing state of one VLAN for one IP version: `dyn_routes_by_ipv`, `dyn_gws_by_ipv`, `dyn_host_gws_by_ipv`,
`dyn_route_gws_by_ipv`, `dyn_neigh_cache_by_ipv`, `dyn_unresolved_host_ip_gws`, `dyn_unresolved_route_ip_gws`. -/
structure VState where
  routes : Dict Net Nat := []
  gws : Dict Nat (List Net) := []
  hostGws : List Nat := []
  routeGws : List Nat := []
  cache : Dict Nat NextHop := []
  unresHost : List Nat := []
  unresRoute : List Nat := []
deriving DecidableEq, Repr

/-- `VLAN.ip_dsts_for_ip_gw`, `faucet/vlan.py` 461-465. -/
def VState.dsts (s : VState) (gw : Nat) : List Net := (s.gws.get? gw).getD []

/-- `VLAN.is_host_fib_route`, `faucet/vlan.py` 418-433. -/
def VState.isHostRoute (w : Nat) (s : VState) (ip : Nat) : Bool :=
  match s.dsts ip with
  | [d] => d.len == w && d.addr == ip
  | _ => false

/-- `VLAN._update_gw_types`, `faucet/vlan.py` 435-442. -/
def VState.updateGwTypes (w : Nat) (s : VState) (gw : Nat) : VState :=
  if s.isHostRoute w gw then { s with hostGws := setAdd s.hostGws gw, routeGws := setDel s.routeGws gw }
  else { s with routeGws := setAdd s.routeGws gw, hostGws := setDel s.hostGws gw }

def VState.setRoute (s : VState) (dst : Net) (gw : Nat) : VState :=
  { s with routes := s.routes.set dst gw, gws := s.gws.set gw (setAdd (s.dsts gw) dst) }

/-- `VLAN.add_route`, `faucet/vlan.py` 444-450. -/
def VState.addRoute (w : Nat) (s : VState) (dst : Net) (gw : Nat) : VState := (s.setRoute dst gw).updateGwTypes w gw

/-- Lines 454-458 of `faucet/vlan.py`. -/
def VState.unsetRoute (s : VState) (dst : Net) (gw : Nat) : VState :=
  { s with routes := s.routes.del dst,
           gws := if setDel (s.dsts gw) dst = [] then s.gws.del gw else s.gws.set gw (setDel (s.dsts gw) dst) }

/-- `VLAN.del_route`, `faucet/vlan.py` 452-459; `none` is a `KeyError`. -/
def VState.delRoute (w : Nat) (s : VState) (dst : Net) : Option VState :=
  match s.routes.get? dst with
  | none => none
  | some gw => if dst ∈ s.dsts gw then some ((s.unsetRoute dst gw).updateGwTypes w gw) else none

/-! ## Configuration -/

/-- What the route manager uses of a `VLAN`: vid, `faucet_mac`, VIPs of the IP version in the iteration order of the
frozenset, `targeted_gw_resolution`, and `proactive_arp_limit` or `proactive_nd_limit`. -/
structure Vlan where
  vid : Nat
  mac : Nat
  vips : List Vip := []
  targeted : Bool := true
  limit : Option Nat := none
deriving DecidableEq, Repr

structure Router where
  vlans : List Vlan
deriving Repr

/-- `ValveRouteManager.__init__`, `faucet/valve_route.py` 119-163, and the class attributes 105-116. `toL2` is the table
that `accept_to_l2_forwarding` goes to; `ipDst` the number of the match field `ipv4_dst` or `ipv6_dst`. -/
structure Mgr where
  width : Nat
  ethType : Nat
  ipDst : Nat
  linkLocal : Nat → Bool
  fib : Table
  vip : Table
  toL2 : Nat
  routers : List Router := []
  globalVid : Nat := 0
  decTtl : Bool := true
  proactive : Bool := true
  neighborTimeout : Int := 30
  maxPerCycle : Int := 5
  maxRetries : Nat := 10
  maxBackoff : Int := 64

/-- `_LPM_PRIORITY`, `faucet/valve_manager_base.py` 16. -/
def lpmPriority : Nat := 0x3000

/-- `VLAN.vip_map`, `faucet/vlan.py` 665-670. -/
def Vlan.vipMap (w : Nat) (v : Vlan) (ip : Nat) : Option Vip := v.vips.find? (fun x => (x.net w).contains w ip)

/-- `VLAN.is_faucet_vip` of an address, `faucet/vlan.py` 672-676. -/
def Vlan.isVip (w : Nat) (v : Vlan) (ip : Nat) : Bool :=
  match v.vipMap w ip with
  | some x => ip == x.ip
  | none => false

/-- `VLAN.is_faucet_vip` of a *network*, which `add_route` and `del_route` call (`faucet/valve_route.py` 846, 971):
`vip_map` finds no VIP because a network is never in a network, so the answer is no. -/
def Vlan.isVipNet (_v : Vlan) (_n : Net) : Bool := false

/-- Lines 682-687 of `faucet/vlan.py`. -/
def hostOf (w : Nat) (ip : Nat) (x : Vip) : Option Vip :=
  if ip = (x.net w).addr ∨ ip = (x.net w).broadcast w then none else some x

/-- `VLAN.ip_in_vip_subnet`, `faucet/vlan.py` 678-688. -/
def Vlan.subnetVip (w : Nat) (v : Vlan) (ip : Nat) : Option Vip := (v.vipMap w ip).bind (hostOf w ip)

/-- One step of the longest prefix search; of two VIPs with the same network the later one replaced the earlier. -/
def vipStep (w ip : Nat) (best : Option (Vlan × Vip)) (e : Vlan × Vip) : Option (Vlan × Vip) :=
  if (e.2.net w).contains w ip then
    match best with
    | none => some e
    | some b => if b.2.len ≤ e.2.len then some e else some b
  else best

/-- `Router.vip_map`, `faucet/router.py` 118-124 and 126-132. -/
def Router.vipMap (w : Nat) (r : Router) (ip : Nat) : Option (Vlan × Vip) :=
  (r.vlans.flatMap (fun v => v.vips.map (fun x => (v, x)))).foldl (vipStep w ip) none

/-- `vlan in router.vlans`. -/
def Router.has (r : Router) (vid : Nat) : Bool := r.vlans.any (fun u => u.vid == vid)

/-- `_router_for_vlan`, `faucet/valve_route.py` 380-386. -/
def Mgr.routerFor (m : Mgr) (v : Vlan) : Option Router := m.routers.find? (fun r => r.has v.vid)

/-- `_global_routing`, `faucet/valve_route.py` 403-405. -/
def Mgr.isGlobal (m : Mgr) : Bool := m.globalVid != 0 && m.routers.length == 1

/-- `_routed_vlans`, `faucet/valve_route.py` 388-397, as VIDs. The result is a set; its order does not matter. -/
def Mgr.routed (m : Mgr) (v : Vlan) : List Nat :=
  if m.isGlobal then [m.globalVid]
  else v.vid :: (m.routers.filter (fun r => r.has v.vid)).flatMap (fun r => r.vlans.map (·.vid))

/-- `_stateful_gw`, `faucet/valve_route.py` 399-401. -/
def Mgr.stateful (m : Mgr) (s : VState) (ip : Nat) : Bool := !m.linkLocal ip || !(s.dsts ip).isEmpty

/-- `router_vlan_for_ip_gw`, `faucet/valve_route.py` 809-824. -/
def Mgr.gwVlan (m : Mgr) (v : Vlan) (gw : Nat) : Option Vlan :=
  match m.routerFor v with
  | some r => (r.vipMap m.width gw).map (·.1)
  | none => if (v.vipMap m.width gw).isSome then some v else none

/-! ## Flows -/

/-- `_route_match`, `faucet/valve_route.py` 371-373, with `build_match_dict`, `faucet/valve_of.py` 848-910. -/
def Mgr.routeMatch (m : Mgr) (vid : Nat) (n : Net) : List MatchItem :=
  [⟨fVlanVid, vidPresent vid, none⟩, ⟨fEthType, m.ethType, none⟩, ⟨m.ipDst, n.addr, some (mask m.width n.len)⟩]

/-- `_route_priority`, `faucet/valve_route.py` 375-378. -/
def Mgr.routePriority (_m : Mgr) (n : Net) : Nat := lpmPriority + n.len

/-- `_nexthop_actions`, `faucet/valve_route.py` 355-369. -/
def Mgr.nexthopActs (m : Mgr) (v : Vlan) (mac : Nat) : List Action :=
  (if m.decTtl then [Action.decTtl] else []) ++
  (if m.routers.isEmpty then [] else [Action.setField fVlanVid (vidPresent v.vid)]) ++
  [Action.setField fEthSrc v.mac, Action.setField fEthDst mac]

/-- `accept_to_l2_forwarding(actions)`, `faucet/valve_pipeline.py` 50-56, 82-90. -/
def Mgr.acceptL2 (m : Mgr) (acts : List Action) : List Inst := [.goto m.toL2, .apply acts]

/-- The flows of `_add_resolved_route`, `faucet/valve_route.py` 530-541. -/
def Mgr.routeFlows (m : Mgr) (v : Vlan) (dst : Net) (mac : Nat) : List OfMsg :=
  (m.routed v).map (fun rv =>
    m.fib.flowadd (m.routeMatch rv dst) (m.routePriority dst) (m.acceptL2 (m.nexthopActs v mac)))

/-- `_del_route_flows`, `faucet/valve_route.py` 945-956. -/
def Mgr.delRouteFlows (m : Mgr) (v : Vlan) (dst : Net) : List OfMsg :=
  (m.routed v).map (fun rv => m.fib.flowdel (m.routeMatch rv dst) (m.routePriority dst) none true)

/-- `_add_resolved_route`, `faucet/valve_route.py` 514-541. -/
def Mgr.addResolved (m : Mgr) (v : Vlan) (dst : Net) (mac : Nat) (updated : Bool) : List OfMsg :=
  (if updated then m.delRouteFlows v dst else []) ++ m.routeFlows v dst mac

/-- The black hole flows of `_add_host_fib_route`, `faucet/valve_route.py` 876-890. -/
def Mgr.blackhole (m : Mgr) (v : Vlan) (ip hard : Nat) : List OfMsg :=
  (m.routed v).map (fun rv => m.fib.flowadd (m.routeMatch rv (hostNet m.width ip)) (m.routePriority (hostNet m.width ip)) [] hard 0)

/-- The VLAN in whose traffic the VIP's flows match: `faucet/valve_route.py` 427-428. -/
def Mgr.vipVid (m : Mgr) (v : Vlan) : Nat := if m.isGlobal then m.globalVid else v.vid

/-- The FIB flows of `_add_faucet_fib_to_vip` for one VIP, `faucet/valve_route.py` 429-446: those to the VIP itself and,
with proactive learning, to its network. The IPv6 flow to the last address of the network (1259-1272) and the flows in
other tables are not modelled. With global routing line 438 passes the anonymous VLAN to `_routed_vlans`, which ignores
it. -/
def Mgr.vipFlows (m : Mgr) (v : Vlan) (x : Vip) : List OfMsg :=
  m.fib.flowadd (m.routeMatch (m.vipVid v) (hostNet m.width x.ip)) (lpmPriority + m.width) [.goto m.vip.id] ::
  (if m.proactive && !m.linkLocal x.ip then
    (m.routed v).map (fun rv => m.fib.flowadd (m.routeMatch rv (x.net m.width)) (lpmPriority + x.len) [.goto m.vip.id])
  else [])

/-- The FIB flows of `add_vlan`, `faucet/valve_route.py` 489-505. -/
def Mgr.addVlan (m : Mgr) (v : Vlan) : List OfMsg := v.vips.flatMap (m.vipFlows v)

/-! ## The manager -/

/-- Messages of the manager: flow mods, requests asking for a gateway's MAC (ARP or ND packet-outs) and answers. -/
inductive RMsg where
  | of (m : OfMsg)
  | ask (vid gw : Nat)
  | answer (vid port : Nat)
deriving DecidableEq, Repr

/-- The flow mods among messages. -/
def flowMods (ms : List RMsg) : List OfMsg := ms.filterMap (fun m => match m with | .of x => some x | _ => none)

/-- Routing state of all VLANs, by VID. -/
abbrev St := Nat → VState

def St.upd (st : St) (vid : Nat) (s : VState) : St := fun k => if k = vid then s else st k

/-- What the outside world decides during one operation: how many packet-outs a flood on a VLAN takes (0 if no port is up:
`_resolve_gw_on_vlan`, `faucet/valve_route.py` 227-250), the jitter of retries per gateway, the hard timeout of a black
hole (`faucet/valve_route.py` 879-882) and the shuffling. -/
structure Env where
  floods : Nat → Nat
  jitter : Nat → Nat
  hard : Nat
  shuffle : List Nat → List Nat

/-- `_cached_nexthop_eth_dst`, `faucet/valve_route.py` 751-756. -/
def VState.eth (s : VState) (gw : Nat) : Option Nat := (s.cache.get? gw).bind (·.eth)

/-- `_update_nexthop_cache`, `faucet/valve_route.py` 543-548. -/
def VState.setHop (s : VState) (gw : Nat) (n : NextHop) : VState := { s with cache := s.cache.set gw n }

/-- `_del_vlan_nexthop_cache_entry`, `faucet/valve_route.py` 351-353. -/
def VState.delHop (s : VState) (gw : Nat) : VState := { s with cache := s.cache.del gw }

/-- The flow mods of `_update_nexthop`, `faucet/valve_route.py` 562-572. -/
def Mgr.nexthopFlows (m : Mgr) (s : VState) (v : Vlan) (mac gw : Nat) : List OfMsg :=
  if s.eth gw ≠ some mac then (s.dsts gw).flatMap (fun dst => m.addResolved v dst mac (s.eth gw).isSome) else []

/-- `_update_nexthop`, `faucet/valve_route.py` 550-575. -/
def Mgr.updateNexthop (m : Mgr) (st : St) (now : Int) (v : Vlan) (port mac gw : Nat) : St × List RMsg :=
  (st.upd v.vid ((st v.vid).setHop gw (NextHop.new (some mac) (some port) now)),
    (m.nexthopFlows (st v.vid) v mac gw).map .of)

/-- Lines 852-863 of `faucet/valve_route.py`. -/
def Mgr.putRoute (m : Mgr) (st : St) (v : Vlan) (gw : Nat) (dst : Net) : St × List RMsg :=
  (st.upd v.vid ((st v.vid).addRoute m.width dst gw),
    (match (st v.vid).eth gw with
      | some mac => (m.addResolved v dst mac false).map .of
      | none => []))

/-- `add_route`, `faucet/valve_route.py` 826-864. -/
def Mgr.addRoute (m : Mgr) (st : St) (v : Vlan) (gw : Nat) (dst : Net) : St × List RMsg :=
  match m.gwVlan v gw with
  | none => (st, [])
  | some u =>
    if u.isVipNet dst then (st, [])
    else if (st u.vid).routes.get? dst = some gw then (st, [])
    else m.putRoute st u gw dst

/-- `del_route`, `faucet/valve_route.py` 958-976. A `KeyError` of `VLAN.del_route` leaves the state as it is; it is
impossible (`del_route_no_error`). -/
def Mgr.delRoute (m : Mgr) (st : St) (v : Vlan) (dst : Net) : St × List RMsg :=
  if v.isVipNet dst then (st, [])
  else match (st v.vid).delRoute m.width dst with
  | none => (st, [])
  | some s => (st.upd v.vid s, (m.delRouteFlows v dst).map .of)

/-- `_add_host_fib_route`, `faucet/valve_route.py` 866-893. -/
def Mgr.addHost (m : Mgr) (e : Env) (st : St) (v : Vlan) (ip : Nat) (hole : Bool) : St × List RMsg :=
  ((m.addRoute st v ip (hostNet m.width ip)).1,
    (if hole then (m.blackhole v ip e.hard).map RMsg.of else []) ++ (m.addRoute st v ip (hostNet m.width ip)).2)

/-- `_add_host_fib_route` without black hole and then `_update_nexthop`: `faucet/valve_route.py` 271-272, 929-938. -/
def Mgr.learnHost (m : Mgr) (e : Env) (st : St) (now : Int) (v : Vlan) (port mac ip : Nat) : St × List RMsg :=
  ((m.updateNexthop (m.addHost e st v ip false).1 now v port mac ip).1,
    (m.addHost e st v ip false).2 ++ (m.updateNexthop (m.addHost e st v ip false).1 now v port mac ip).2)

/-- `add_host_fib_route_from_pkt`, `faucet/valve_route.py` 915-943, for an IP packet. -/
def Mgr.hostPkt (m : Mgr) (e : Env) (st : St) (now : Int) (v : Vlan) (port mac ip : Nat) : St × List RMsg :=
  if (v.subnetVip m.width ip).isSome && m.stateful (st v.vid) ip then m.learnHost e st now v port mac ip else (st, [])

/-- `_resolve_vip_response`, `faucet/valve_route.py` 262-289. -/
def Mgr.askVip (m : Mgr) (e : Env) (st : St) (now : Int) (v : Vlan) (port mac src target : Nat) : St × List RMsg :=
  if v.isVip m.width target && (v.subnetVip m.width src).isSome then
    if m.stateful (st v.vid) src then
      ((m.learnHost e st now v port mac src).1, (m.learnHost e st now v port mac src).2 ++ [.answer v.vid port])
    else (st, [.answer v.vid port])
  else (st, [])

/-- `_gw_advert`, `faucet/valve_route.py` 291-307. -/
def Mgr.advert (m : Mgr) (st : St) (now : Int) (v : Vlan) (port mac target : Nat) : St × List RMsg :=
  if (v.subnetVip m.width target).isSome && m.stateful (st v.vid) target then m.updateNexthop st now v port mac target
  else (st, [])

/-- The packet-outs of `_resolve_gateway_flows`, `faucet/valve_route.py` 618-629. -/
def Mgr.asks (e : Env) (v : Vlan) (gw : Nat) (n : NextHop) : List RMsg :=
  if v.targeted && n.last == none && n.port.isSome then [.ask v.vid gw] else List.replicate (e.floods v.vid) (.ask v.vid gw)

/-- `_resolve_gateway_flows`, `faucet/valve_route.py` 609-647. -/
def Mgr.resolveGw (m : Mgr) (e : Env) (st : St) (now : Int) (v : Vlan) (gw : Nat) (n : NextHop) : St × List RMsg :=
  if (v.vipMap m.width gw).isSome then
    (st.upd v.vid ((st v.vid).setHop gw (n.nextRetry now m.maxBackoff (e.jitter gw))), Mgr.asks e v gw n)
  else (st, [])

/-- `_expire_gateway_flows`, `faucet/valve_route.py` 649-663. -/
def Mgr.expireGw (m : Mgr) (st : St) (v : Vlan) (gw : Nat) (n : NextHop) : St × List RMsg :=
  ((m.delRoute (st.upd v.vid ((st v.vid).delHop gw)) v (hostNet m.width gw)).1,
    if n.port = none then [] else (m.delRoute (st.upd v.vid ((st v.vid).delHop gw)) v (hostNet m.width gw)).2)

/-- `_resolve_expire_gateway_flows`, `faucet/valve_route.py` 665-670. -/
def Mgr.resolveExpire (m : Mgr) (e : Env) (st : St) (now : Int) (v : Vlan) (gw : Nat) (n : NextHop) : St × List RMsg :=
  if n.dead m.maxRetries then m.expireGw st v gw n else m.resolveGw e st now v gw n

/-- The resolve handler of `resolve_gateways` (`false`) and of `resolve_expire_hosts` (`true`). -/
def Mgr.handler (m : Mgr) (hosts : Bool) : Env → St → Int → Vlan → Nat → NextHop → St × List RMsg :=
  if hosts then m.resolveExpire else m.resolveGw

/-- The loop of `_resolve_gateways_flows`, `faucet/valve_route.py` 679-691. -/
def Mgr.resolveLoop (m : Mgr) (e : Env) (hosts : Bool) (now : Int) (v : Vlan) : List Nat → Int → St → St × List RMsg
  | [], _, st => (st, [])
  | gw :: gws, remaining, st =>
    if remaining = 0 then (st, [])
    else match (st v.vid).cache.get? gw with
      | none => m.resolveLoop e hosts now v gws remaining st
      | some n =>
        if n.due now m.neighborTimeout then
          ((m.resolveLoop e hosts now v gws (if (m.handler hosts e st now v gw n).2 = [] then remaining else remaining - 1)
              (m.handler hosts e st now v gw n).1).1,
            (m.handler hosts e st now v gw n).2 ++
            (m.resolveLoop e hosts now v gws (if (m.handler hosts e st now v gw n).2 = [] then remaining else remaining - 1)
              (m.handler hosts e st now v gw n).1).2)
        else m.resolveLoop e hosts now v gws remaining st

/-- The gateways that are not fresh: `faucet/valve_route.py` 587-594. -/
def Mgr.notFresh (m : Mgr) (s : VState) (now : Int) (gws : List Nat) : List Nat :=
  gws.filter (fun gw => match s.cache.get? gw with
    | none => true
    | some n => n.due now m.neighborTimeout)

/-- Line 598 of `faucet/valve_route.py`: a cache entry for a gateway that has none. -/
def VState.touch (now : Int) (s : VState) (gw : Nat) : VState :=
  match s.cache.get? gw with
  | none => s.setHop gw (NextHop.new none none now)
  | some _ => s

/-- `entry.resolve_retries`. -/
def VState.retries (s : VState) (gw : Nat) : Nat := match s.cache.get? gw with | none => 0 | some n => n.retries

/-- `unresolved_nexthops_by_retries` in increasing order of retries, each group shuffled: lines 595-604 of
`faucet/valve_route.py`. -/
def groups (shuffle : List Nat → List Nat) (retries : Nat → Nat) (gws : List Nat) : Nat → List Nat
  | 0 => []
  | k + 1 => groups shuffle retries gws k ++ shuffle (gws.filter (fun gw => retries gw == k))

/-- One more than the largest number of retries. -/
def bound (retries : Nat → Nat) (gws : List Nat) : Nat := gws.foldr (fun gw b => max (retries gw + 1) b) 0

/-- `_vlan_unresolved_nexthops`, `faucet/valve_route.py` 577-604: new state of the VLAN and the gateways in order. -/
def Mgr.unresolved (m : Mgr) (e : Env) (s : VState) (now : Int) (gws : List Nat) : VState × List Nat :=
  ((m.notFresh s now gws).foldl (VState.touch now) s,
    groups e.shuffle s.retries (m.notFresh s now gws) (bound s.retries (m.notFresh s now gws)))

def VState.setUnres (s : VState) (hosts : Bool) (l : List Nat) : VState :=
  if hosts then { s with unresHost := l } else { s with unresRoute := l }

def VState.unres (s : VState) (hosts : Bool) : List Nat := if hosts then s.unresHost else s.unresRoute

def VState.gwsOf (s : VState) (hosts : Bool) : List Nat := if hosts then s.hostGws else s.routeGws

/-- What `resolve_gateways` and `resolve_expire_hosts` do before the loop: lines 703-713 and 732-742 of
`faucet/valve_route.py`. -/
def Mgr.pick (m : Mgr) (e : Env) (s : VState) (hosts all : Bool) (now : Int) : VState × List Nat :=
  if all then
    ((m.unresolved e s now (s.gwsOf hosts)).1.setUnres hosts (m.unresolved e s now (s.gwsOf hosts)).2,
      (m.unresolved e s now (s.gwsOf hosts)).2)
  else match s.unres hosts with
    | [] => (s, [])
    | gw :: rest => (s.setUnres hosts rest, [gw])

/-- `resolve_gateways` (`hosts = false`), `faucet/valve_route.py` 693-720, and `resolve_expire_hosts` (`hosts = true`),
722-749. -/
def Mgr.resolve (m : Mgr) (e : Env) (st : St) (hosts all : Bool) (now : Int) (v : Vlan) : St × List RMsg :=
  m.resolveLoop e hosts now v (m.pick e (st v.vid) hosts all now).2 m.maxPerCycle
    (st.upd v.vid (m.pick e (st v.vid) hosts all now).1)

/-- The VLAN and VIP of `_proactive_resolve_neighbor`, `faucet/valve_route.py` 772-777. -/
def Mgr.vipFor (m : Mgr) (v : Vlan) (ip : Nat) : Option (Vlan × Vip) :=
  match m.routerFor v with
  | none => (v.vipMap m.width ip).map (fun x => (v, x))
  | some r => r.vipMap m.width ip

/-- The new next hop of a proactive resolution: `faucet/valve_route.py` 791-800. The entry is for `dst`; resolution starts
unless it was in progress. -/
def Mgr.startHop (m : Mgr) (e : Env) (st : St) (now : Int) (v : Vlan) (dst : Nat) (inProgress : Bool) : St × List RMsg :=
  if inProgress then (st.upd v.vid ((st v.vid).setHop dst (NextHop.new none none now)), [])
  else m.resolveGw e (st.upd v.vid ((st v.vid).setHop dst (NextHop.new none none now))) now v dst (NextHop.new none none now)

/-- Lines 786-805 of `faucet/valve_route.py`. -/
def Mgr.seekHost (m : Mgr) (e : Env) (st : St) (now : Int) (v : Vlan) (port mac src : Nat) (u : Vlan) (dst : Nat) :
    St × List RMsg :=
  let r1 := m.hostPkt e st now v port mac src
  let r2 := m.addHost e r1.1 u dst true
  let r3 := m.startHop e r2.1 now u dst ((r1.1 u.vid).hostGws.contains dst)
  (r3.1, r1.2 ++ r2.2 ++ r3.2)

/-- `limit is None or len(self._vlan_nexthop_cache(vlan)) < limit`, `faucet/valve_route.py` 784-785. -/
def underLimit (limit : Option Nat) (n : Nat) : Bool :=
  match limit with
  | none => true
  | some l => n < l

/-- The test of lines 778-785 of `faucet/valve_route.py`. -/
def Mgr.wantsHost (m : Mgr) (st : St) (u : Vlan) (x : Vip) (dst : Nat) : Bool :=
  (hostOf m.width dst x).isSome && x.ip != dst && m.stateful (st u.vid) dst && underLimit u.limit (st u.vid).cache.length

/-- `_proactive_resolve_neighbor`, `faucet/valve_route.py` 766-807. -/
def Mgr.toHost (m : Mgr) (e : Env) (st : St) (now : Int) (v : Vlan) (port mac src dst : Nat) : St × List RMsg :=
  if m.proactive then
    match m.vipFor v dst with
    | some (u, x) => if m.wantsHost st u x dst then m.seekHost e st now v port mac src u dst else (st, [])
    | none => (st, [])
  else (st, [])

/-- Next hops known on a port: `faucet/valve_route.py` 327-333. -/
def VState.hopsOn (s : VState) (port : Nat) : List (Nat × NextHop) := s.cache.filter (fun x => x.2.port == some port)

/-- Lines 334-340 of `faucet/valve_route.py`: expire the next hops of a list. -/
def Mgr.expireAll (m : Mgr) (v : Vlan) : List (Nat × NextHop) → St → St × List RMsg
  | [], st => (st, [])
  | x :: xs, st => ((m.expireAll v xs (m.expireGw st v x.1 x.2).1).1,
      (m.expireGw st v x.1 x.2).2 ++ (m.expireAll v xs (m.expireGw st v x.1 x.2).1).2)

/-- `expire_port_nexthops`, `faucet/valve_route.py` 321-341; the VLANs are those of the port. -/
def Mgr.portDown (m : Mgr) (port : Nat) : List Vlan → St → St × List RMsg
  | [], st => (st, [])
  | v :: vs, st => ((m.portDown port vs (m.expireAll v ((st v.vid).hopsOn port) st).1).1,
      (m.expireAll v ((st v.vid).hopsOn port) st).2 ++ (m.portDown port vs (m.expireAll v ((st v.vid).hopsOn port) st).1).2)

/-! ## Operations -/

/-- What happens to a route manager. -/
inductive Op where
  /-- a route is announced (BGP) for the VLAN -/
  | announce (v : Vlan) (gw : Nat) (dst : Net)
  /-- it is withdrawn -/
  | withdraw (v : Vlan) (dst : Net)
  /-- an IP packet of a host of the VLAN reaches the controller -/
  | hostPkt (now : Int) (v : Vlan) (port mac ip : Nat)
  /-- a host asks for the MAC of an address -/
  | askVip (now : Int) (v : Vlan) (port mac src target : Nat)
  /-- a host answers or advertises its MAC -/
  | advert (now : Int) (v : Vlan) (port mac target : Nat)
  /-- a packet for a host of a connected network reaches the controller -/
  | toHost (now : Int) (v : Vlan) (port mac src dst : Nat)
  /-- the resolver runs, for gateways or hosts, for all or the next -/
  | resolve (hosts all : Bool) (now : Int) (v : Vlan)
  | portDown (port : Nat) (vs : List Vlan)

def Mgr.step (m : Mgr) (e : Env) (st : St) : Op → St × List RMsg
  | .announce v gw dst => m.addRoute st v gw dst
  | .withdraw v dst => m.delRoute st v dst
  | .hostPkt now v port mac ip => m.hostPkt e st now v port mac ip
  | .askVip now v port mac src target => m.askVip e st now v port mac src target
  | .advert now v port mac target => m.advert st now v port mac target
  | .toHost now v port mac src dst => m.toHost e st now v port mac src dst
  | .resolve hosts all now v => m.resolve e st hosts all now v
  | .portDown port vs => m.portDown port vs st

end Faucet.Route
