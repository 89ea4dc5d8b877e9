import Verif.Stack.Graph

/-!
# Which stack ports a switch uses

Model of `/repo/faucet/valve_stack.py` 56-140 (`reset_peer_distances`), 322-352 (port predicates),
`/repo/faucet/stack.py` 391-400, 433-451 and `/repo/faucet/valve_switch_stack.py` 130-172, 300-330,
578-601, 722-782.

Python sets of ports are lists here (only membership is used).  Ports are compared by value in the
code as well (`Conf.__eq__`); two ports of one switch differ in their number.
-/

namespace Faucet.Stack

/-- A stack port, port.py: its number, the switch and port number it is cabled to by the
configuration (`port.stack`), whether the stack state machine says UP (`is_stack_up`) and whether
the port is enabled and physically up (`running`). -/
structure SPort where
  num : Nat
  peerDp : Nat
  peerNum : Nat
  up : Bool
  running : Bool
deriving DecidableEq, Repr

/-- The stacked switches a controller manages: each switch's stack ports, its own copy of the
topology graph and its own idea of the root (`dp.stack.graph`, `dp.stack.root_name`). -/
structure Net where
  ports : Nat → List SPort
  graph : Nat → Graph
  root : Nat → Nat

/-- `canonical_port_order`, dp.py 886-889. -/
def canonOrder (ps : List SPort) : List SPort := isort (fun a b => decide (a.num ≤ b.num)) ps

/-- `canonical_up_ports(ports)`, stack.py 396-400. -/
def canonUp (ps : List SPort) : List SPort := canonOrder (ps.filter (fun p => p.up))

/-- `shortest_path_to_root()` of a switch, stack.py 415-417. -/
def pathToRoot (n : Net) (s : Nat) : List Nat := shortestPath (n.graph s) s (n.root s)

/-- `is_root()`, stack.py 419-421. -/
def isRoot (n : Net) (s : Nat) : Bool := s == n.root s

/-- Distance assigned to a port: the length of its peer's path to the root as the peer sees it,
valve_stack.py 71-74. -/
def peerDist (n : Net) (p : SPort) : Nat := (pathToRoot n p.peerDp).length

/-- Least distance over the ports, valve_stack.py 75-80. -/
def shortestPeerDist (n : Net) : List SPort → Option Nat
  | [] => none
  | p :: ps =>
    match shortestPeerDist n ps with
    | none => some (peerDist n p)
    | some d => some (min (peerDist n p) d)

/-- `all_peer_ports`, valve_stack.py 66. -/
def peerPorts (n : Net) (s : Nat) : List SPort := canonUp (n.ports s)

/-- `towards_root_ports`, valve_stack.py 81-85. -/
def towards (n : Net) (s : Nat) : List SPort :=
  if isRoot n s then []
  else (peerPorts n s).filter
    (fun p => some (peerDist n p) == shortestPeerDist n (peerPorts n s))

/-- `away_ports`, valve_stack.py 68, 115. -/
def away (n : Net) (s : Nat) : List SPort :=
  (peerPorts n s).filter (fun p => decide (p ∉ towards n s))

/-- `first_peer_dp`, valve_stack.py 91-100. -/
def firstPeer (n : Net) (s : Nat) : Option Nat :=
  match pathToRoot n s with
  | _ :: v :: _ => some v
  | _ => (canonOrder (towards n s)).head?.map (·.peerDp)

/-- `chosen_towards_ports`, valve_stack.py 101-106. -/
def chosenTowards (n : Net) (s : Nat) : List SPort :=
  (towards n s).filter (fun p => some p.peerDp == firstPeer n s)

/-- `chosen_towards_port`, valve_stack.py 108-111. -/
def chosenPort (n : Net) (s : Nat) : Option SPort := (canonUp (chosenTowards n s)).head?

/-- `inactive_away_ports`, valve_stack.py 117-125, with `is_in_path`, stack.py 465-476. -/
def inactiveAway (n : Net) (s : Nat) : List SPort :=
  (away n s).filter
    (fun p => decide (s ∉ shortestPath (n.graph s) p.peerDp (n.root s)))

/-- `port.stack["port"]`: the port at the other end. -/
def remote (n : Net) (p : SPort) : Option SPort :=
  (n.ports p.peerDp).find? (fun q => q.num == p.peerNum)

/-- The remote ends of the away ports to one neighbour, in canonical order,
valve_stack.py 128-134. -/
def remoteAway (n : Net) (s t : Nat) : List SPort :=
  canonUp (((away n s).filter (fun p => p.peerDp == t)).filterMap (remote n))

/-- `pruned_away_ports`, valve_stack.py 127-138: for every neighbour, the away ports whose remote
end is not the first. -/
def prunedAway (n : Net) (s : Nat) : List SPort :=
  ((away n s).map (·.peerDp)).flatMap (fun t =>
    ((remoteAway n s t).filter (fun q => decide (some q ≠ (remoteAway n s t).head?))).filterMap
      (remote n))

/-- `is_pruned_port(port)`, valve_stack.py 344-352. -/
def isPruned (n : Net) (s : Nat) (p : SPort) : Bool :=
  if p ∈ towards n s then decide (chosenPort n s ≠ some p)
  else if p ∈ away n s then decide (p ∈ prunedAway n s)
  else true

/-- `peer_up_ports(peer)`, stack.py 443-451: running ports, whatever their stack state. -/
def peerUpPorts (n : Net) (s t : Nat) : List SPort :=
  canonOrder ((n.ports s).filter (fun p => p.running && p.peerDp == t))

/-- `shortest_path_port(dest)`, stack.py 433-441. -/
def shortestPathPort (n : Net) (s d : Nat) : Option SPort :=
  match shortestPath (n.graph s) s d with
  | _ :: v :: _ => (peerUpPorts n s v).head?
  | _ => none

/-! ## Flooding between switches -/

/-- What a flood rule does with a packet.  `localPorts` stands for the whole of
`local_flood_actions`, modelled in the Flood area; `flag b` for the action that records whether
the packet may still be flooded to external ports. -/
inductive Act where
  | flag (ext : Bool)
  | out (p : SPort)
  | inPort
  | localPorts
deriving DecidableEq, Repr

/-- Where a packet entered a switch: on one of the hosts' ports (`ext` if it is an external port),
or on a stack port. -/
inductive Ingress where
  | host (ext : Bool)
  | stack (p : SPort)
deriving DecidableEq, Repr

/-- `flood_tagged_port_outputs` for stack ports, valve_of.py 1281-1304.  Stack ports are taken to
have neither hairpin nor mirrors. -/
def floodOuts (ps : List SPort) (inp : Ingress) (excl : List SPort) : List Act :=
  (ps.filter (fun p => decide (inp ≠ .stack p ∧ p ∉ excl))).map .out

/-- `adjacent_stack_ports(peer)`, valve_stack.py 354-356. -/
def adjacentPorts (n : Net) (s t : Nat) : List SPort := (n.ports s).filter (fun p => p.peerDp == t)

/-- Ports the away flood leaves out, valve_switch_stack.py 139-145. -/
def floodExclude (n : Net) (s : Nat) (inp : Ingress) : List SPort :=
  inactiveAway n s ++
    (match inp with
     | .stack p => adjacentPorts n s p.peerDp
     | .host _ => [])

/-- `away_flood_actions`, valve_switch_stack.py 155-159. -/
def awayActs (n : Net) (s : Nat) (inp : Ingress) : List Act :=
  floodOuts (away n s) inp (floodExclude n s inp)

/-- `toward_flood_actions`, valve_switch_stack.py 160-164. -/
def towardActs (n : Net) (s : Nat) (inp : Ingress) : List Act :=
  floodOuts (chosenTowards n s) inp []

/-- The action that marks a packet not yet / already flooded externally, present when the switch
has external ports configured at all (valve_switch_stack.py 36-47, 728-731). -/
def flagActs (hasExt : Bool) (b : Bool) : List Act := if hasExt then [.flag b] else []

/-- `ValveSwitchStackManagerNoReflection._flood_actions`, valve_switch_stack.py 578-601.
`hasExt`: external ports configured on the switch; `extVlan`: the VLAN has some. -/
def noReflectActs (hasExt extVlan : Bool) (n : Net) (s : Nat) (inp : Ingress) : List Act :=
  (match inp with
   | .stack _ => []
   | .host _ => flagActs hasExt (!extVlan)) ++
  towardActs n s inp ++ awayActs n s inp ++ [.localPorts]

/-- `ValveSwitchStackManagerReflection._flood_actions`, valve_switch_stack.py 722-782. -/
def reflectActs (hasExt extVlan : Bool) (n : Net) (s : Nat) (inp : Ingress) : List Act :=
  if isRoot n s then
    flagActs hasExt (!extVlan) ++
      (match inp with
       | .stack p =>
         if p ∈ away n s then awayActs n s inp ++ [.inPort] ++ [.localPorts]
         else awayActs n s inp ++ [.localPorts]
       | .host _ => awayActs n s inp ++ [.localPorts])
  else
    match inp with
    | .stack p =>
      if p ∈ away n s then towardActs n s inp
      else if p ∈ towards n s then
        if extVlan then flagActs hasExt false ++ awayActs n s inp ++ [.localPorts]
        else awayActs n s inp ++ flagActs hasExt false ++ [.localPorts]
      else flagActs hasExt true ++ towardActs n s inp
    | .host ext => flagActs hasExt (!ext) ++ towardActs n s inp

/-- Which of the two strategies a switch runs (`root_flood_reflection`, stack.py 316-319), and
what external ports it has. -/
structure Mode where
  reflect : Bool
  hasExt : Nat → Bool
  extVlan : Nat → Bool

/-- The actions of the flood rule that a packet meets at a switch. -/
def floodActs (m : Mode) (n : Net) (s : Nat) (inp : Ingress) : List Act :=
  if m.reflect then reflectActs (m.hasExt s) (m.extVlan s) n s inp
  else noReflectActs (m.hasExt s) (m.extVlan s) n s inp

/-- A broadcast copy at a switch that has passed the input filter. -/
abbrev Copy := Nat × Ingress

/-- Input filter at the far end of a link: broadcasts on pruned ports are dropped,
valve_switch_stack.py 195-200, 308-314.  A copy sent on a port arrives at the port it is cabled to. -/
def arrive (n : Net) (p : SPort) : Option Copy :=
  match remote n p with
  | some q => if isPruned n p.peerDp q then none else some (p.peerDp, .stack q)
  | none => none

/-- The copies one action of the flood rule at switch `s` puts on the wire and that get accepted. -/
def actNext (n : Net) (inp : Ingress) : Act → Option Copy
  | .out p => arrive n p
  | .inPort =>
    match inp with
    | .stack p => arrive n p
    | .host _ => none
  | _ => none

/-- Copies accepted by neighbours after switch `s` floods a copy. -/
def nexts (m : Mode) (n : Net) (c : Copy) : List Copy :=
  (floodActs m n c.1 c.2).filterMap (actNext n c.2)

/-- Switches whose local ports a copy is flooded to, one entry per flood. -/
def locals (m : Mode) (n : Net) (c : Copy) : List Nat :=
  ((floodActs m n c.1 c.2).filter (fun a => decide (a = .localPorts))).map (fun _ => c.1)

/-- Copies in flight after `k` rounds. -/
def inFlight (m : Mode) (n : Net) : Nat → List Copy → List Copy
  | 0, cs => cs
  | k + 1, cs => inFlight m n k (cs.flatMap (nexts m n))

/-- Local floods done in the first `k` rounds. -/
def flooded (m : Mode) (n : Net) : Nat → List Copy → List Nat
  | 0, _ => []
  | k + 1, cs => cs.flatMap (locals m n) ++ flooded m n k (cs.flatMap (nexts m n))

end Faucet.Stack
