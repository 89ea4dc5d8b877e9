import Verif.Route.Model

/-!
# What the router itself says: ARP, neighbour discovery, pings, expired packets, advertisements

Model of the packet handlers of `/repo/faucet/valve_route.py` 184-191, 270-315, 1047-1150, 1276-1435,
`/repo/faucet/valve.py` 1080-1097 and 1413-1445, the packet builders of `/repo/faucet/valve_packet.py` 495-795 and
`/repo/faucet/vlan.py` 621-655, on top of the route manager of `Verif.Route.Model`.

Packets are taken as parsed by `os_ken`; a packet that does not parse is `Body.other`.  Parsing cuts packets short where
the code asks for it (`reparse`, valve_packet.py 878-927), and that is modelled.  Data are lists of bytes.  All packets
to the controller carry a VLAN tag (faucet pushes one), so layer 3 begins at byte 18.
-/

namespace Faucet.Route
open Faucet

/-- The ports of a VLAN as far as sending packets goes: `tagged`, `untagged` with `dot1x_untagged`, which are running, and
`excluded_lag_ports()`, vlan.py 559-577. -/
structure Members where
  tagged : List Nat
  untagged : List Nat
  running : Nat → Bool
  excluded : List Nat := []

/-- An ICMP message as parsed. -/
inductive Icmp4 where
  | echo (ident seq : Nat) (data : List Nat)
  | other (type : Nat)
deriving DecidableEq, Repr

/-- An ICMPv6 message as parsed from the whole packet. -/
inductive Icmp6 where
  | solicit (target : Nat)
  | advert (target : Nat)
  | routerSolicit
  | echo (ident seq : Nat) (data : List Nat)
  | other (type : Nat)
deriving DecidableEq, Repr

/-- Layer 3 of a packet.  `raw` is all of it, header included. -/
inductive Body where
  | arp (op src dst : Nat)
  | ip4 (src dst proto : Nat) (icmp : Option Icmp4) (raw : List Nat)
  | ip6 (src dst nxt hop : Nat) (ext : Bool) (icmp : Option Icmp6) (raw : List Nat)
  | other
deriving DecidableEq, Repr

/-- Why a switch sent a packet: `OFPR_ACTION`, `OFPR_INVALID_TTL` or `OFPR_NO_MATCH`. -/
inductive Reason where
  | action | invalidTtl | noMatch
deriving DecidableEq, Repr

/-- A packet that reached the controller (`PacketMeta`, valve_packet.py 796-860): of a packet of `total` bytes the switch
sent the first `got`.  `routed` says that its VLAN has any VIP, of whichever IP version. -/
structure PktIn where
  vlan : Vlan
  routed : Bool := true
  port : Nat
  ethSrc : Nat
  ethDst : Nat
  reason : Reason := .action
  got : Nat
  total : Nat
  body : Body
deriving DecidableEq, Repr

/-- Layer 3 of a packet the router sends. -/
inductive Said where
  | arpReply (sha spa tha tpa : Nat)
  | echo4 (src dst ident seq : Nat) (data : List Nat)
  | exceeded4 (src dst : Nat) (quote : List Nat)
  | ndAdvert (src dst hop target tla : Nat)
  | echo6 (src dst hop ident seq : Nat) (data : List Nat)
  | exceeded6 (src dst : Nat) (quote : List Nat)
  | routerAdvert (src dst hop : Nat) (prefixes : List Net) (sla : Nat)
deriving DecidableEq, Repr

/-- A packet put on a port. -/
structure Sent where
  port : Nat
  vid : Option Nat
  ethSrc : Nat
  ethDst : Nat
  said : Said
deriving DecidableEq, Repr

/-! ## Builders and outputs -/

/-- `arp_reply`, valve_packet.py 521-545. -/
def arpReply (ethSrc ethDst src dst : Nat) : Said := .arpReply ethSrc src ethDst dst

/-- `nd_advert`, valve_packet.py 660-690. -/
def ndAdvert (ethSrc _ethDst src dst : Nat) : Said := .ndAdvert src dst 255 src ethSrc

/-- `router_advert`, valve_packet.py 750-795. -/
def routerAdvert (w ethSrc _ethDst src dst : Nat) (vips : List Vip) : Said :=
  .routerAdvert src dst 255 (vips.map (·.net w)) ethSrc

/-- `pkt_out_port`, vlan.py 621-627. -/
def pktOut (v : Vlan) (mem : Members) (port ethSrc ethDst : Nat) (said : Said) : Sent where
  port := port
  vid := if mem.tagged.contains port then some v.vid else none
  ethSrc := ethSrc
  ethDst := ethDst
  said := said

/-- `running_port_nos`, vlan.py 638-643; their shuffling is left out. -/
def Members.up (mem : Members) (ports : List Nat) : List Nat :=
  ports.filter (fun p => mem.running p && !mem.excluded.contains p)

/-- `flood_pkt`, vlan.py 629-655. -/
def floodPkt (v : Vlan) (mem : Members) (ethSrc ethDst : Nat) (said : Said) : List Sent :=
  (mem.up mem.tagged).map (fun p => Sent.mk p (some v.vid) ethSrc ethDst said) ++
  (mem.up mem.untagged).map (fun p => Sent.mk p none ethSrc ethDst said)

/-! ## Handlers -/

/-- What a handler does: new state, messages of the manager and packets sent. -/
structure Res where
  st : St
  msgs : List RMsg
  outs : List Sent

/-- `if replies:`. -/
def Res.said (r : Res) : Bool := !r.msgs.isEmpty || !r.outs.isEmpty

def Res.nil (st : St) : Res := ⟨st, [], []⟩

def Res.of (r : St × List RMsg) : Res := ⟨r.1, r.2, []⟩

/-- The broadcast address. -/
def bcastMac : Nat := 0xffffffffffff

/-- `mac_addr_is_unicast`, valve_packet.py 229-241: the lowest bit of the first octet is the group bit. -/
def unicastMac (mac : Nat) : Bool := mac != bcastMac && mac / 2 ^ 40 % 2 == 0

/-- `packet_complete`, valve_packet.py 929-931.  The data of ARP and IPv4 packets have been cut to 64 and 174 bytes by
then (`reparse`, 884-886, with the sizes of 49-67 and 823-826). -/
def PktIn.complete (p : PktIn) : Bool :=
  match p.body with
  | .arp _ _ _ => min p.got 64 == p.total
  | .ip4 _ _ _ _ _ => min p.got 174 == p.total
  | _ => p.got == p.total

/-- `_unicast_to_vip`, valve_route.py 184-191, with `from_connected_to_vip`, vlan.py 690-701. -/
def Mgr.unicastToVip (m : Mgr) (p : PktIn) (src dst : Nat) : Bool :=
  p.ethDst == p.vlan.mac && (p.vlan.isVip m.width dst && (p.vlan.subnetVip m.width src).isSome)

/-- `_resolve_vip_response`, valve_route.py 262-289, with the answer it sends; `build` is `_gw_respond_pkt()`. -/
def Mgr.vipResponse (m : Mgr) (e : Env) (st : St) (now : Int) (mem : Members) (p : PktIn) (src target : Nat)
    (build : Nat → Nat → Nat → Nat → Said) : Res where
  st := (m.askVip e st now p.vlan p.port p.ethSrc src target).1
  msgs := (m.askVip e st now p.vlan p.port p.ethSrc src target).2
  outs :=
    if p.vlan.isVip m.width target && (p.vlan.subnetVip m.width src).isSome then
      [pktOut p.vlan mem p.port p.vlan.mac p.ethSrc (build p.vlan.mac p.ethSrc target src)]
    else []

/-- `_control_plane_arp_handler`, valve_route.py 1047-1068. -/
def Mgr.arpHandler (m : Mgr) (e : Env) (st : St) (now : Int) (mem : Members) (p : PktIn) (op src dst : Nat) : Res :=
  if op = 1 then
    if p.ethDst = bcastMac ∨ p.ethDst = p.vlan.mac then m.vipResponse e st now mem p src dst arpReply else .nil st
  else if op = 2 then
    if p.ethDst = p.vlan.mac then .of (m.advert st now p.vlan p.port p.ethSrc src) else .nil st
  else .nil st

/-- The host of a ping becomes known if it was not: valve_route.py 1095-1096, 1322-1323. -/
def Mgr.pinged (m : Mgr) (e : Env) (st : St) (now : Int) (p : PktIn) (src : Nat) : St × List RMsg :=
  if (st p.vlan.vid).eth src = none then m.hostPkt e st now p.vlan p.port p.ethSrc src else (st, [])

/-- `_control_plane_icmp_handler`, valve_route.py 1070-1097, with `echo_reply`, valve_packet.py 547-570. -/
def Mgr.icmpHandler (m : Mgr) (e : Env) (st : St) (now : Int) (mem : Members) (p : PktIn) (src dst proto : Nat)
    (icmp : Option Icmp4) : Res :=
  if proto ≠ 1 then .nil st
  else if m.unicastToVip p src dst then
    match icmp with
    | some (.echo ident seq data) =>
      ⟨(m.pinged e st now p src).1, (m.pinged e st now p src).2,
        [pktOut p.vlan mem p.port p.vlan.mac p.ethSrc (.echo4 dst src ident seq data)]⟩
    | _ => .nil st
  else .nil st

/-- `_control_plane_time_exceeded_handler`, valve_route.py 1099-1126: 20 bytes of header and 8 more are quoted. -/
def Mgr.exceededHandler4 (m : Mgr) (st : St) (mem : Members) (p : PktIn) (src : Nat) (raw : List Nat) : Res :=
  match p.vlan.subnetVip m.width src with
  | none => .nil st
  | some x => ⟨st, [], [pktOut p.vlan mem p.port p.vlan.mac p.ethSrc (.exceeded4 x.ip src (raw.take 28))]⟩

/-- `_proactive_resolve_neighbor`, valve_route.py 766-807, for an ARP packet too long to be handled: as `Mgr.toHost`, but the
sender of a packet that is not IP is not learned (929). -/
def Mgr.toHostArp (m : Mgr) (e : Env) (st : St) (now : Int) (v : Vlan) (dst : Nat) : St × List RMsg :=
  if m.proactive then
    match m.vipFor v dst with
    | some (u, x) =>
      if m.wantsHost st u x dst then
        let r2 := m.addHost e st u dst true
        let r3 := m.startHop e r2.1 now u dst ((st u.vid).hostGws.contains dst)
        (r3.1, r2.2 ++ r3.2)
      else (st, [])
    | none => (st, [])
  else (st, [])

/-- `ValveRouteManager.control_plane_handler`, valve_route.py 978-979: resolve proactively. -/
def Mgr.proactiveHandler (m : Mgr) (e : Env) (st : St) (now : Int) (p : PktIn) : Res :=
  match p.body with
  | .arp _ _ dst => .of (m.toHostArp e st now p.vlan dst)
  | .ip4 src dst _ _ _ => .of (m.toHost e st now p.vlan p.port p.ethSrc src dst)
  | .ip6 src dst _ _ _ _ _ => .of (m.toHost e st now p.vlan p.port p.ethSrc src dst)
  | .other => .nil st

/-- `if replies: return replies`, else go on. -/
def Res.orElse (r : Res) (k : St → Res) : Res := if r.said then r else k r.st

/-- `ValveIPv4RouteManager.control_plane_handler`, valve_route.py 1128-1147. -/
def Mgr.handler4 (m : Mgr) (e : Env) (st : St) (now : Int) (mem : Members) (p : PktIn) : Res :=
  if p.complete then
    match p.body with
    | .arp op src dst => m.arpHandler e st now mem p op src dst
    | .ip4 src dst proto icmp raw =>
      if p.reason = .invalidTtl then m.exceededHandler4 st mem p src raw
      else (m.icmpHandler e st now mem p src dst proto icmp).orElse (fun st => m.proactiveHandler e st now p)
    | _ => .nil st
  else m.proactiveHandler e st now p

/-- `link_and_other_vips`, vlan.py 399-404. -/
def Mgr.linkVips (m : Mgr) (v : Vlan) : List Vip := v.vips.filter (fun x => m.linkLocal x.ip)
def Mgr.otherVips (m : Mgr) (v : Vlan) : List Vip := v.vips.filter (fun x => !m.linkLocal x.ip)

/-- `_router_solicit_handler`, valve_route.py 1276-1298. -/
def Mgr.routerSolicitHandler (m : Mgr) (st : St) (mem : Members) (p : PktIn) (src : Nat) : Res :=
  match (m.linkVips p.vlan).find? (fun x => (x.net m.width).contains m.width src) with
  | some x => ⟨st, [], [pktOut p.vlan mem p.port p.vlan.mac p.ethSrc
      (routerAdvert m.width p.vlan.mac p.ethSrc x.ip src (m.otherVips p.vlan))]⟩
  | none => .nil st

/-- `_echo_request_handler`, valve_route.py 1300-1324, with `icmpv6_echo_reply`, valve_packet.py 692-720.  The packet was
parsed up to 96 bytes after the IPv6 header (1330, 1363-1365), 8 of which precede the data of the ping. -/
def Mgr.echoHandler6 (m : Mgr) (e : Env) (st : St) (now : Int) (mem : Members) (p : PktIn) (src dst hop ident seq : Nat)
    (data : List Nat) : Res :=
  if m.unicastToVip p src dst then
    ⟨(m.pinged e st now p src).1, (m.pinged e st now p src).2,
      [pktOut p.vlan mem p.port p.vlan.mac p.ethSrc (.echo6 dst src hop ident seq (data.take 88))]⟩
  else .nil st

/-- Whether the message is an echo request, valve_route.py 1352-1355. -/
def Icmp6.isEcho : Icmp6 → Bool
  | .echo _ _ _ => true
  | _ => false

/-- The table of handlers, valve_route.py 1326-1331. -/
def Mgr.icmp6Table (m : Mgr) (e : Env) (st : St) (now : Int) (mem : Members) (p : PktIn) (src dst hop : Nat) : Icmp6 → Res
  | .solicit target => m.vipResponse e st now mem p src target ndAdvert
  | .advert target => .of (m.advert st now p.vlan p.port p.ethSrc target)
  | .routerSolicit => m.routerSolicitHandler st mem p src
  | .echo ident seq data => m.echoHandler6 e st now mem p src dst hop ident seq data
  | .other _ => .nil st

/-- `_control_plane_icmpv6_handler`, valve_route.py 1333-1367. -/
def Mgr.icmp6Handler (m : Mgr) (e : Env) (st : St) (now : Int) (mem : Members) (p : PktIn) (src dst nxt hop : Nat) (ext : Bool)
    (icmp : Option Icmp6) : Res :=
  if nxt ≠ 58 then .nil st
  else if ext then .nil st
  else if (p.vlan.subnetVip m.width src).isNone then .nil st
  else match icmp with
  | none => .nil st
  | some c => if hop ≠ 255 ∧ c.isEcho = false then .nil st else m.icmp6Table e st now mem p src dst hop c

/-- `_control_plane_time_exceeded_handler` for IPv6, valve_route.py 1369-1400.  The packet was parsed up to 32 bytes after
the IPv6 header, so that is all there is to quote, after 4 bytes of padding. -/
def Mgr.exceededHandler6 (m : Mgr) (st : St) (mem : Members) (p : PktIn) (src : Nat) (ext : Bool) (raw : List Nat) : Res :=
  if ext then .nil st
  else match p.vlan.subnetVip m.width src with
  | none => .nil st
  | some x => ⟨st, [], [pktOut p.vlan mem p.port p.vlan.mac p.ethSrc
      (.exceeded6 x.ip src ([0, 0, 0, 0] ++ (raw.take 72).take 552))]⟩

/-- `ValveIPv6RouteManager.control_plane_handler`, valve_route.py 1402-1417. -/
def Mgr.handler6 (m : Mgr) (e : Env) (st : St) (now : Int) (mem : Members) (p : PktIn) : Res :=
  if p.complete then
    match p.body with
    | .ip6 src dst nxt hop ext icmp raw =>
      if p.reason = .invalidTtl then m.exceededHandler6 st mem p src ext raw
      else (m.icmp6Handler e st now mem p src dst nxt hop ext icmp).orElse (fun st => m.proactiveHandler e st now p)
    | _ => .nil st
  else m.proactiveHandler e st now p

/-- The route manager for the packet's EtherType, valve.py 1424: the IPv6 manager is the one whose addresses have 128
bits. -/
def Mgr.handle (m : Mgr) (e : Env) (st : St) (now : Int) (mem : Members) (p : PktIn) : Res :=
  match p.body with
  | .arp _ _ _ => if m.width = 32 then m.handler4 e st now mem p else .nil st
  | .ip4 _ _ _ _ _ => if m.width = 32 then m.handler4 e st now mem p else .nil st
  | .ip6 _ _ _ _ _ _ _ => if m.width = 128 then m.handler6 e st now mem p else .nil st
  | .other => .nil st

/-- `_control_plane_handler`, valve.py 1080-1097. -/
def Mgr.controlPlane (m : Mgr) (e : Env) (st : St) (now : Int) (mem : Members) (p : PktIn) : Res :=
  if p.ethDst = p.vlan.mac ∨ unicastMac p.ethDst = false ∨ p.reason = .invalidTtl then m.handle e st now mem p else .nil st

/-- The host of an IP packet becomes known: `add_host_fib_route_from_pkt`, valve_route.py 917-943. -/
def Mgr.fromPkt (m : Mgr) (e : Env) (st : St) (now : Int) (p : PktIn) : St × List RMsg :=
  match p.body with
  | .ip4 src _ _ _ _ => m.hostPkt e st now p.vlan p.port p.ethSrc src
  | .ip6 src _ _ _ _ _ _ => m.hostPkt e st now p.vlan p.port p.ethSrc src
  | _ => (st, [])

/-- No activity of the router: learn the host and run the resolver, valve.py 1435-1444. -/
def Mgr.idle (m : Mgr) (e : Env) (st : St) (now : Int) (p : PktIn) : St × List RMsg :=
  let r1 := m.fromPkt e st now p
  let r2 := m.resolve e r1.1 false false now p.vlan
  let r3 := m.resolve e r2.1 true false now p.vlan
  (r3.1, r1.2 ++ r2.2 ++ r3.2)

/-- After the handlers, valve.py 1431-1445. -/
def Mgr.afterwards (m : Mgr) (e : Env) (now : Int) (p : PktIn) (r : Res) : Res :=
  if r.said then r
  else if p.reason = .action then .of (m.idle e r.st now p)
  else r

/-- Whether the packet is one for this manager: its EtherType and a VLAN with VIPs, valve.py 1422-1429. -/
def Mgr.concerns (m : Mgr) (p : PktIn) : Bool :=
  p.routed && (match p.body with
    | .arp _ _ _ => m.width == 32
    | .ip4 _ _ _ _ _ => m.width == 32
    | .ip6 _ _ _ _ _ _ _ => m.width == 128
    | .other => false)

/-- `router_rcv_packet`, valve.py 1413-1445. -/
def Mgr.rcv (m : Mgr) (e : Env) (st : St) (now : Int) (mem : Members) (p : PktIn) : Res :=
  if m.concerns p then m.afterwards e now p (m.controlPlane e st now mem p) else .nil st

/-- The all-nodes addresses, valve_packet.py 76-78. -/
def allNodesMac : Nat := 0x333300000001
def allNodes : Nat := 0xff020000000000000000000000000001

/-- `advertise`, valve_route.py 1419-1435. -/
def Mgr.advertise (m : Mgr) (v : Vlan) (mem : Members) : List Sent :=
  (m.linkVips v).flatMap (fun x => floodPkt v mem v.mac allNodesMac
    (routerAdvert m.width v.mac allNodesMac x.ip allNodes (m.otherVips v)))

end Faucet.Route
