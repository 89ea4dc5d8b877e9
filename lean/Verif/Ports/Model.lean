import Verif.Base.Dict
import Mathlib.Data.List.Dedup

/-!
# Port status, port descriptions and packet-in admission

`faucet/valve.py` 470-517, 531-541, 555-709, 803-933 and 1180-1305; `faucet/faucet.py` 227-244, 324-363, 364-410.
Port numbers are natural numbers; a set of ports is a list, of which only membership matters.
-/

namespace Faucet.Ports

/-- `OFPP_LOCAL` (OpenFlow 1.3). -/
def ofppLocal : Nat := 0xfffffffe
/-- `OFPP_IN_PORT`. -/
def ofppInPort : Nat := 0xfffffff8

/-- `ignore_port`, `faucet/valve_of.py` 258-270. -/
def ignorePort (p : Nat) : Bool :=
  if p = ofppLocal ∨ p = ofppInPort then false else decide (p > 0xF0000000)

/-- The settings of a port used here: `enabled`, `opstatus_reconf` (`faucet/port.py` 136), whether the port carries
VLANs, or is a stack, output-only or coprocessor port, so that `_get_all_configured_port_nos` (`faucet/valve.py` 470-475)
finds it, `stack`, and the VIDs of `tagged_vlans` and `native_vlan`. -/
structure PortConf where
  enabled : Bool := true
  reconf : Bool := true
  used : Bool := true
  stack : Bool := false
  tagged : List Nat := []
  native : Option Nat := none
deriving DecidableEq, Repr

/-- Port reasons `OFPPR_ADD`, `OFPPR_DELETE`, `OFPPR_MODIFY`; any other code is `other`
(`_port_status_codes`, `faucet/valve.py` 543-547). -/
inductive Reason where
  | add | delete | modify | other
deriving DecidableEq, Repr

/-- The port state bits `OFPPS_LINK_DOWN`, `OFPPS_BLOCKED` and `OFPPS_LIVE`. -/
structure PState where
  linkDown : Bool := false
  blocked : Bool := false
  live : Bool := false
deriving DecidableEq, Repr

/-- `port_status_from_state`, `faucet/valve_of.py` 273-275. -/
def PState.up (s : PState) : Bool := !s.linkDown

/-- What the switch is told about a port: the messages of `ports_add` (845-885) or `ports_delete` (897-933). The
contents of the messages are the subject of other parts of the model. -/
inductive Act where
  | add (p : Nat)
  | del (p : Nat)
deriving DecidableEq, Repr

/-- Controller state for one switch: `dyn_running`, `dyn_up_port_nos`, the ports with `dyn_phys_up`, and all that was
sent. -/
structure Sw where
  running : Bool := false
  up : List Nat := []
  phys : List Nat := []
  sent : List Act := []
deriving DecidableEq, Repr

abbrev Conf := Dict Nat PortConf

/-- Add to, or remove from, a set. -/
def setIn (l : List Nat) (p : Nat) (b : Bool) : List Nat := if b then p :: l else l.filter (· ≠ p)

/-- `_set_port_status`, `faucet/valve.py` 531-541 (the metric and update time are left out). -/
def Sw.setStatus (s : Sw) (p : Nat) (b : Bool) : Sw := { s with up := setIn s.up p b }

/-- `port_no_valid`, `faucet/dp.py` 677-679. -/
def valid (c : Conf) (p : Nat) : Bool := !ignorePort p && c.has p

/-- One port in `ports_add`, `faucet/valve.py` 859-870: nothing is installed for a disabled port. -/
def portAdd (c : Conf) (s : Sw) (p : Nat) : Sw :=
  match c.get? p with
  | some pc =>
    if ignorePort p then s
    else { s with phys := setIn s.phys p true, sent := if pc.enabled then s.sent ++ [.add p] else s.sent }
  | none => s

/-- One port in `ports_delete`, `faucet/valve.py` 910-930. -/
def portDelete (c : Conf) (s : Sw) (p : Nat) : Sw :=
  if valid c p then { s with phys := setIn s.phys p false, sent := s.sent ++ [.del p] } else s

/-- `new_port_status`, `faucet/valve.py` 669-671. -/
def newStatus : Reason → PState → Bool
  | .add, _ => true
  | .modify, st => st.up
  | _, _ => false

/-- `port_status_handler`, `faucet/valve.py` 641-709. -/
def portStatus (c : Conf) (s : Sw) (p : Nat) (r : Reason) (st : PState) : Sw :=
  let s1 := s.setStatus p st.up
  match c.get? p with
  | none => s1
  | some pc =>
    if ignorePort p then s1
    else if !pc.reconf then s1
    else if r = .other then s1
    else if newStatus r st ≠ s1.phys.contains p then
      if newStatus r st then portAdd c s1 p else portDelete c s1 p
    else if newStatus r st && (st.blocked || st.linkDown) then portDelete c s1 p
    else s1

/-- The entries of a port description reply: number and state. -/
abbrev Reply := List (Nat × PState)

/-- `_fabricate`, `faucet/valve.py` 572-585. -/
def fabricate (c : Conf) (s : Sw) (p : Nat) (r : Reason) (b : Bool) : Sw :=
  portStatus c s p r { linkDown := !b }

/-- Ports present in the reply, `curr_dyn_port_nos`, 587-588. -/
def present (reply : Reply) (p : Nat) : Bool := decide (p ≠ ofppLocal) && reply.any (fun e => e.1 == p)

/-- Ports up in the reply, `curr_dyn_up_port_nos`, 593-597. -/
def upIn (reply : Reply) (p : Nat) : Bool := reply.any (fun e => e.1 == p && e.2.up)

/-- Loop body for a port without configuration, 613-618. `prev` is `prev_dyn_up_port_nos`. -/
def descUnknown (c : Conf) (reply : Reply) (prev : List Nat) (s : Sw) (p : Nat) : Sw :=
  if prev.contains p ≠ upIn reply p then fabricate c s p .modify (upIn reply p) else s

/-- Loop body for a configured port, 621-637. -/
def descKnown (c : Conf) (reply : Reply) (prev : List Nat) (s : Sw) (p : Nat) : Sw :=
  if prev.contains p = upIn reply p then s
  else if present reply p then
    if !prev.contains p then fabricate c s p .add true else fabricate c s p .modify (upIn reply p)
  else fabricate c s p .delete false

/-- `port_desc_stats_reply_handler`, `faucet/valve.py` 555-639. The loops run over sets: `shuffle` is the order in which
they happen to be walked. -/
def portDesc (shuffle : List Nat → List Nat) (c : Conf) (s : Sw) (reply : Reply) : Sw :=
  let prev := s.up
  let unknown := ((reply.map (·.1)).filter (fun p => present reply p && !c.has p)).dedup
  let s1 := (shuffle unknown).foldl (descUnknown c reply prev) s
  (shuffle c.keys).foldl (descKnown c reply prev) s1

/-- Ports taken as up at connection: discovered, or set to ignore status (`faucet/valve.py` 488-491). -/
def connUp (c : Conf) (disc : List Nat) (p : Nat) : Bool :=
  disc.contains p || c.any (fun e => e.1 == p && !e.2.reconf)

/-- The configured ports found by `_get_all_configured_port_nos`, 470-475. -/
def usedPorts (c : Conf) : List Nat := (c.filter (fun e => e.2.used)).map (·.1)

/-- `datapath_connect` with `_cold_start_ports_and_vlans`, `faucet/valve.py` 486-517 and 803-820. -/
def connect (shuffle : List Nat → List Nat) (c : Conf) (s : Sw) (disc : List Nat) : Sw :=
  let s1 := (shuffle (usedPorts c)).foldl (fun s p => s.setStatus p (connUp c disc p)) s
  let s2 := (shuffle ((usedPorts c).filter (connUp c disc))).foldl (portAdd c) s1
  { s2 with running := true }

/-- `datapath_disconnect`, 822-829: `ports_delete` of every port with a time (taken as non-zero). -/
def disconnect (c : Conf) (s : Sw) : Sw :=
  c.keys.foldl (fun s p => if valid c p then (portDelete c s p).setStatus p false else s) { s with running := false }

/-- What can happen to one switch. -/
inductive Op where
  | connect (disc : List Nat)
  | disconnect
  | status (p : Nat) (r : Reason) (st : PState)
  | desc (reply : Reply)
deriving DecidableEq, Repr

/-- The handlers of `faucet/faucet.py` 324-410: port status messages are ignored while the switch is not running. -/
def step (shuffle : List Nat → List Nat) (c : Conf) (s : Sw) : Op → Sw
  | .connect disc => connect shuffle c s (disc.filter (fun p => !ignorePort p))
  | .disconnect => disconnect c s
  | .status p r st => if s.running then portStatus c s p r st else s
  | .desc reply => portDesc shuffle c s reply

def run (shuffle : List Nat → List Nat) (c : Conf) (s : Sw) (ops : List Op) : Sw := ops.foldl (step shuffle c) s

/-! ## Packet-in admission -/

/-- The settings of a switch used to admit packets: `strict_packet_in_cookie`, `cookie`, the VIDs of `vlans` with their
router MAC, `global_vlan` (0 when global routing is off) and whether stacking is on. -/
structure DpConf where
  ports : Conf
  strictCookie : Bool := false
  cookie : Nat := 0
  vlans : Dict Nat Nat
  globalVlan : Nat := 0
  stacking : Bool := false
deriving DecidableEq, Repr

/-- Packet-in reasons: `OFPR_ACTION`, `OFPR_INVALID_TTL`, anything else. -/
inductive PReason where
  | action | invalidTtl | other
deriving DecidableEq, Repr

/-- A packet-in message: cookie, reason, ingress port of the match (`none`: no match at all), whether there is any data,
and what `parse_packet_in_pkt` (`faucet/valve_packet.py` 176-213, over the `ryu` packet library) makes of the headers:
`none` when there is no Ethernet header, else source, destination and VID. -/
structure PacketIn where
  cookie : Nat
  reason : PReason
  inPort : Option Nat
  hasData : Bool
  headers : Option (Nat × Nat × Option Nat)
deriving DecidableEq, Repr

/-- `PacketMeta` as far as used: port number, VLAN, source and destination. -/
structure Meta where
  reason : PReason
  port : Nat
  vlan : Option Nat
  src : Nat
  dst : Nat
deriving DecidableEq, Repr

/-- `mac_addr_is_unicast`, `faucet/valve_packet.py` 230-241: MACs are 48-bit numbers; the group bit is the lowest bit of
the first octet (the broadcast address has it set). -/
def macUnicast (m : Nat) : Bool := m / 2 ^ 40 % 2 == 0

/-- `int_from_mac`, `faucet/valve_packet.py`: the last two octets. -/
def intFromMac (m : Nat) : Nat := m % 2 ^ 16

/-- `parse_rcv_packet`, `faucet/valve.py` 1180-1232. -/
def parseRcv (d : DpConf) (r : PReason) (p : Nat) (src dst : Nat) (vid : Option Nat) : Meta :=
  let vlan := vid.filter (fun v => d.vlans.has v)
  if vid = some d.globalVlan then
    let v := intFromMac dst
    match d.vlans.get? v with
    | some mac => ⟨r, p, some v, src, mac⟩
    | none => ⟨r, p, none, src, dst⟩
  else ⟨r, p, vlan, src, dst⟩

/-- Membership test for stacking, 1289-1304. -/
def stackOk (d : DpConf) (m : Meta) : Bool :=
  match d.stacking, d.ports.get? m.port, m.vlan with
  | true, some pc, some v => pc.stack || pc.tagged.contains v || pc.native == some v
  | _, _, _ => true

/-- Header checks of `parse_pkt_meta`, 1262-1304. -/
def admitHeaders (d : DpConf) (msg : PacketIn) (p : Nat) : Option Meta :=
  match msg.headers with
  | none => none
  | some (src, dst, vid) =>
    if vid.any (fun v => !d.vlans.has v && v != d.globalVlan) then none
    else
      let m := parseRcv d msg.reason p src dst vid
      if !macUnicast m.src then none
      else if m.src = 0 then none
      else if stackOk d m then some m
      else none

/-- `parse_pkt_meta`, `faucet/valve.py` 1234-1305. `none`: the packet is dropped. -/
def admit (d : DpConf) (running : Bool) (msg : PacketIn) : Option Meta :=
  if !running then none
  else if d.strictCookie && d.cookie ≠ msg.cookie then none
  else if msg.reason = .other then none
  else match msg.inPort with
    | none => none
    | some p =>
      if p = 0 || !valid d.ports p then none
      else if !msg.hasData then none
      else admitHeaders d msg p

/-- `packet_in_handler` (`faucet/faucet.py` 283-292) and `valve_packet_in` (`faucet/valves_manager.py` 417-438) for any
controller state `σ`: `limited` is the verdict of the rate limiter, `handle` is `rcv_packet`. -/
def packetIn {σ : Type} (d : DpConf) (running limited : Bool) (handle : σ → Meta → σ) (s : σ) (msg : PacketIn) : σ :=
  if !running || limited then s
  else match admit d running msg with
    | none => s
    | some m => handle s m

end Faucet.Ports
