import Verif.Stack.Path

/-!
# Hosts of a stack: where switches believe a host to be, and what becomes of packets to it

Model of `/repo/faucet/valve_switch_stack.py` 56-91, 337-364, 603-609, 672-720, 784-801,
`/repo/faucet/valve_stack.py` 157-209 and `/repo/faucet/valve.py` 1111-1150 for stacked switches.

Everything is about one MAC address in one VLAN that all switches of the stack have: the entries of
other addresses play no part (host limits, which would, are left out: a packet that a limit bans is
no event here).  All switches of the stack are connected to this controller, so `peer_dp.dyn_running`
holds (lines 606, 796).  Ports are neither in a LAG nor permanent-learn nor loop-protect, and
`stack.route_learning` is off (line 532).  Edge ports are known by their numbers.
-/

namespace Faucet.Stack

/-- A port a host is learned on: an edge port, or a stack port. -/
inductive Loc where
  | edge (k : Nat)
  | stack (p : SPort)
deriving DecidableEq, Repr

/-- An entry of the host table (`HostCacheEntry`, vlan.py 36-56). -/
structure Ent where
  loc : Loc
  time : Int
deriving DecidableEq, Repr

/-- What every switch knows of the host (`vlan.cached_host(eth_src)`). -/
abbrev Hosts := Nat → Option Ent

/-- What learning depends on. -/
structure HCfg where
  /-- `edge_learn_stack_root` of the VLAN, vlan.py 118 (on by default) -/
  viaRoot : Bool
  /-- `ValveSwitchStackManagerReflection` is used -/
  reflect : Bool
  /-- `loop_protect_external` by switch and edge port -/
  ext : Nat → Nat → Bool
  /-- whether an edge port forwards (`non_stack_forwarding`, port.py 539-547) -/
  fwd : Nat → Nat → Bool
  /-- `dyn_update_time` by switch and port -/
  updated : Nat → Loc → Option Int
  /-- `cache_update_guard_time` -/
  guard : Int

/-- `edge_learn_port_towards(pkt_meta, edge_dp)`, valve_stack.py 196-208. -/
def towardsEdge (c : HCfg) (n : Net) (s e : Nat) : Option SPort :=
  if c.viaRoot then relativePort n s e else shortestPathPort n s e

/-- Whether another switch has the host on one of its forwarding edge ports, external or not as
asked, valve_switch_stack.py 70-80. -/
def learnedAt (c : HCfg) (h : Hosts) (external : Bool) (t : Nat) : Bool :=
  match h t with
  | some ⟨.edge k, _⟩ => c.fwd t k && (c.ext t k == external)
  | _ => false

/-- `_non_stack_learned`, valve_switch_stack.py 56-91.  `order` lists the connected switches in the
order in which the set of them is walked, which the code leaves open. -/
def nonStackLearned (c : HCfg) (h : Hosts) (order : List Nat) (s : Nat) : Option Nat :=
  match (order.filter (fun t => t != s)).find? (learnedAt c h false) with
  | some t => some t
  | none =>
    match (order.filter (fun t => t != s)).find? (learnedAt c h true) with
    | some t => if (h s).isNone then some t else none
    | none => none

/-- `edge_learn_port`, valve_switch_stack.py 337-364, with `_edge_dp_for_host` of both managers
(603-609, 784-801): the port that a packet received at `inp` is to be learned on. -/
def edgeLearnPort (c : HCfg) (n : Net) (h : Hosts) (order : List Nat) (s : Nat) (inp : Loc) : Option Loc :=
  match inp with
  | .stack _ =>
    match nonStackLearned c h order s with
    | some e => (towardsEdge c n s e).map .stack
    | none => none
  | .edge k =>
    if c.ext s k then
      match nonStackLearned c h order s with
      | some e => (towardsEdge c n s e).map .stack
      | none => some (.edge k)
    else some (.edge k)

/-- A host with a local entry is heard from a stack port: it may be the reflection of a flood,
valve_switch_stack.py 691-693.  Only with reflection. -/
def localStackLearn (c : HCfg) (old port : Loc) : Bool :=
  c.reflect && (match port, old with
    | .stack _, .edge _ => true
    | _, _ => false)

/-- `port_cache_valid`, valve_switch_stack.py 696-699. -/
def stillValid (c : HCfg) (s : Nat) (port : Loc) (e : Ent) : Bool :=
  match c.updated s port with
  | some t => decide (t ≤ e.time)
  | none => false

/-- `_learn_cache_check`: whether the sighting is not recorded, valve_switch_stack.py 672-720 and
valve_switch_standalone.py 933-976. -/
def cacheFresh (c : HCfg) (s : Nat) (now : Int) (port : Loc) (e : Ent) : Bool :=
  if localStackLearn c e.loc port then decide (now - e.time < 2) && stillValid c s port e
  else if e.loc = port then decide (now - e.time < c.guard) && stillValid c s port e
  else false

/-- Record a sighting. -/
def Hosts.set (h : Hosts) (s : Nat) (e : Option Ent) : Hosts := fun t => if t = s then e else h t

/-- `learn_host`, valve.py 1111-1150, once the port is chosen. -/
def learnOn (c : HCfg) (h : Hosts) (s : Nat) (now : Int) (port : Loc) : Hosts :=
  match h s with
  | some e => if cacheFresh c s now port e then h else h.set s (some ⟨port, now⟩)
  | none => h.set s (some ⟨port, now⟩)

/-- Something happens that concerns the host: a packet of it is reported by a switch, or a switch
forgets it (it timed out, or the port it was on is gone). -/
inductive HEvent where
  | packet (s : Nat) (inp : Loc) (now : Int) (order : List Nat)
  | forget (s : Nat)

/-- One event. -/
def hostStep (c : HCfg) (n : Net) (h : Hosts) : HEvent → Hosts
  | .packet s inp now order =>
    match edgeLearnPort c n h order s inp with
    | some port => learnOn c h s now port
    | none => h
  | .forget s => h.set s none

/-! ## Packets to the host -/

/-- A packet that leaves on a stack port arrives at the port it is cabled to.  Unicast packets are
not dropped on pruned ports: valve_switch_stack.py 308-314. -/
def cross (n : Net) (p : SPort) : Option Copy := (remote n p).map (fun q => (p.peerDp, .stack q))

/-- What one action of the flood rule for unknown destinations puts on the wire. -/
def actCross (n : Net) (inp : Ingress) : Act → Option Copy
  | .out p => cross n p
  | .inPort =>
    match inp with
    | .stack p => cross n p
    | .host _ => none
  | _ => none

/-- Where copies of a packet to the host go from a switch: by the rule for the host if the switch
knows it (valve_switch_standalone.py 848-873; a switch does not send a packet back out of the port
it came in on), else by the flood rule for unknown destinations (valve_switch_stack.py 281-335).
The rule for a host is taken to be there exactly while the host is in the host table (see C55). -/
def unicastNext (m : Mode) (n : Net) (h : Hosts) (c : Copy) : List Copy :=
  match h c.1 with
  | some ⟨.edge _, _⟩ => []
  | some ⟨.stack p, _⟩ => if c.2 = .stack p then [] else (cross n p).toList
  | none => (floodActs m n c.1 c.2).filterMap (actCross n c.2)

/-- Copies that a switch delivers to the host, which is at edge port `k` of switch `e`.  Flooding to
local ports is taken to include that port. -/
def unicastHere (m : Mode) (n : Net) (h : Hosts) (e k : Nat) (c : Copy) : Nat :=
  match h c.1 with
  | some ⟨.edge j, _⟩ => if c.1 = e ∧ j = k then 1 else 0
  | some ⟨.stack _, _⟩ => 0
  | none => if c.1 = e then (locals m n c).length else 0

/-- Copies in flight after `f` rounds. -/
def unicastFlight (m : Mode) (n : Net) (h : Hosts) : Nat → List Copy → List Copy
  | 0, cs => cs
  | f + 1, cs => unicastFlight m n h f (cs.flatMap (unicastNext m n h))

/-- Copies delivered to the host in the first `f` rounds. -/
def unicastCopies (m : Mode) (n : Net) (h : Hosts) (e k : Nat) : Nat → List Copy → Nat
  | 0, _ => 0
  | f + 1, cs => (cs.map (unicastHere m n h e k)).sum +
      unicastCopies m n h e k f (cs.flatMap (unicastNext m n h))

end Faucet.Stack
