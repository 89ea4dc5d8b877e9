import Verif.Acl.Model
import Verif.Dot1x.Model
import Verif.Stack.Peers

/-!
# ACL tunnels

`faucet/acl.py` 546-761, `faucet/valve_stack.py` 210-230 and 358-431, `faucet/valve_acl.py` 283-321 and 761-843,
`faucet/dp.py` 936-1185.  Switches are numbered in the order of their names, as in the Stack area.
-/

namespace Faucet.Tunnel
open Faucet.OF Faucet.Acl Faucet.Stack

/-- `PCP_TUNNEL_FLAG` and `PCP_TUNNEL_REVERSE_DIRECTION_FLAG`, `faucet/valve_of.py` 62-65. -/
def tunnelFlag : Nat := 3
def reverseFlag : Nat := 4

/-- An entry of `acl.tunnel_dests`, `faucet/acl.py` 362-372.  The type of the tunnel is always `vlan`. -/
structure Dest where
  dp : Nat
  port : Option Nat
  exits : List OutAct := []
  biDir : Bool := false
  maintain : Bool := false
  reverse : Bool := false
deriving DecidableEq, Repr

/-- An entry of `acl.tunnel_sources`, `faucet/acl.py` 611-624: `port = none` is a source given by `dp_acls`. -/
structure Source where
  dp : Nat
  port : Option Nat
deriving DecidableEq, Repr

/-- The mark of the tunnel, `faucet/acl.py` 687-689. -/
def Dest.flag (d : Dest) : Nat := if d.reverse then reverseFlag else tunnelFlag

/-- The last element, `faucet/acl.py` 727-732: a port, or the `eth_dst` table for a tunnel to a switch. -/
def outEnd (l2 : Nat) : Option Nat → OutAct
  | none => .goto l2
  | some p => .port p

/-- The tag put on the packet, `faucet/acl.py` 700-702 and 741-750. -/
def encap (vid flag : Nat) : List OutAct := [.vlanVids [⟨vid, some 0x8100⟩], .setFields [(fVlanPcp, flag)]]

/-- An output to a port that is known (`{"port": out_port}`). -/
def outTo (out : Option Nat) : List OutAct := out.toList.map .port

/-- `update_source_tunnel_rules`, `faucet/acl.py` 679-761: the new list.  (It returns `True` in every case.) -/
def sourceRules (cur src : Nat) (d : Dest) (vid : Nat) (out : Option Nat) (l2 : Nat) : List OutAct :=
  if cur = src ∧ cur ≠ d.dp then encap vid d.flag ++ outTo out ++ [.popVlans 1]
  else if cur = d.dp ∧ cur ≠ src then (if d.maintain then [] else [.popVlans 1]) ++ d.exits ++ [outEnd l2 out]
  else if cur = src ∧ cur = d.dp then d.exits ++ (if d.maintain then encap vid d.flag else []) ++ [outEnd l2 out]
  else outTo out

/-- `update_reverse_tunnel_rules`, `faucet/acl.py` 641-677, for a tunnel that is bi-directional: from the destination
of the tunnel to its source `src`. -/
def reverseRules (cur src : Nat) (d : Dest) (out : Option Nat) (l2 : Nat) : List OutAct :=
  if cur = d.dp ∧ cur ≠ src then outTo out
  else if cur = src ∧ cur ≠ d.dp then [.popVlans 1, outEnd l2 out]
  else if cur = d.dp ∧ cur = src then [.popVlans 1, outEnd l2 out]
  else outTo out

/-- `tunnel_outport`, `faucet/valve_stack.py` 210-230, on switch `cur`; `is_in_path`, `faucet/stack.py` 465-476. -/
def outport (n : Net) (cur src dst : Nat) (dstPort : Option Nat) : Option Nat :=
  if cur ∈ shortestPath (n.graph cur) src dst then
    if cur = dst then dstPort else (shortestPathPort n cur dst).map (·.num)
  else none

/-- The decision of `acl_update_tunnel` for one source of one tunnel, `faucet/valve_stack.py` 367-386: the new rules, or
`none` if nothing is updated (what was there stays). -/
def fwd (n : Net) (cur l2 vid : Nat) (d : Dest) (s : Source) : Option (List OutAct) :=
  match outport n cur s.dp d.dp d.port with
  | none => if d.port = none ∧ d.dp = cur then some (sourceRules cur s.dp d vid none l2) else none
  | some 0 => none
  | some (p + 1) => some (sourceRules cur s.dp d vid (some (p + 1)) l2)

/-- The same for the reverse direction, `faucet/valve_stack.py` 394-406. -/
def rev (n : Net) (cur l2 : Nat) (d : Dest) (s : Source) : Option (List OutAct) :=
  if d.biDir then
    match outport n cur d.dp s.dp s.port with
    | none => if s.port = none ∧ s.dp = cur then some (reverseRules cur s.dp d none l2) else none
    | some 0 => none
    | some (p + 1) => some (reverseRules cur s.dp d (some (p + 1)) l2)
  else none

/-- The match of a tunnel rule, `faucet/valve_acl.py` 302-309. -/
def tunnelItems (vid flag : Nat) : List MatchItem := [⟨fVlanVid, vidPresent vid, none⟩, ⟨fVlanPcp, flag, none⟩]

/-- Instructions of a tunnel rule, `faucet/valve_acl.py` 296-301. -/
def tunnelInst (l : List OutAct) : List Inst := (outFlat (.ordered l)).inst ++ [.apply (outFlat (.ordered l)).acts]

/-- `build_tunnel_ofmsgs`, `faucet/valve_acl.py` 283-321, as called by `build_tunnel_rules_ofmsgs` and
`build_reverse_tunnel_rules_ofmsgs`, 761-800: without port, with `flowdel`. -/
def tunnelMsgs (t : Table) (vid flag : Nat) (l : List OutAct) : List OfMsg :=
  (outFlat (.ordered l)).msgs ++
  [t.flowdel (tunnelItems vid flag) Dot1x.overridePriority,
   t.flowadd (tunnelItems vid flag) Dot1x.overridePriority (tunnelInst l)]

/-- An ACL with tunnels: the ACL, `tunnel_dests` by tunnel id and `tunnel_sources`. -/
structure TAcl where
  acl : Acl.Acl
  dests : List (Nat × Dest)
  sources : List Source

/-- `acl.dyn_tunnel_rules[tunnel][source]`; `none` if there is no entry. -/
abbrev Dyn := Nat → Source → Option (List OutAct)

/-- The rules after the loop over the sources. -/
def updDyn (n : Net) (cur l2 : Nat) (a : TAcl) (dyn : Dyn) : Dyn := fun id s =>
  match a.dests.find? (fun e => e.1 = id) with
  | some e => if s ∈ a.sources then (match fwd n cur l2 id e.2 s with | some r => some r | none => dyn id s) else dyn id s
  | none => dyn id s

/-- `build_tunnel_rules_ofmsgs` for the updated sources that are not on this switch, `faucet/valve_stack.py` 387-393 and
409-412. -/
def fwdMsgs (n : Net) (cur l2 : Nat) (t : Table) (vid : Nat) (d : Dest) (ss : List Source) : List OfMsg :=
  ss.flatMap (fun s => if s.dp = cur then [] else
    match fwd n cur l2 vid d s with
    | some r => tunnelMsgs t vid d.flag r
    | none => [])

/-- `build_reverse_tunnel_rules_ofmsgs` for the updated sources, 413-417. -/
def revMsgs (n : Net) (cur l2 : Nat) (t : Table) (vid : Nat) (d : Dest) (ss : List Source) : List OfMsg :=
  ss.flatMap (fun s =>
    match rev n cur l2 d s with
    | some r => tunnelMsgs t vid reverseFlag r
    | none => [])

/-- The tunnels named by an output, `faucet/acl.py` 565-600. -/
def outTunnels : Output → List Nat
  | .dict d => d.tunnel.toList
  | .ordered l => l.filterMap (fun a => match a with | .tunnel t => some t | _ => none)

/-- `get_tunnel_rules`, `faucet/acl.py` 565-581. -/
def tunnelRulesOf (a : Acl.Acl) (vid : Nat) : List Rule :=
  a.rules.filter (fun r => match r.actions.bind (·.output) with | some o => (outTunnels o).contains vid | none => false)

/-- The tunnel rules handed to the builders for a source. -/
def tunnelDict (a : TAcl) (dyn : Dyn) (s : Source) : Dict Nat Output :=
  a.dests.filterMap (fun e => (dyn e.1 s).map (fun l => (e.1, .ordered l)))

/-- What the builders of the source switch are given, `faucet/valve_acl.py` 802-842. -/
def srcCtx (m : Mgr) (t : Table) (a : TAcl) (dyn : Dyn) (s : Source) (port : Option Nat) (exact : Bool) : Ctx where
  table := t
  allowTable := m.toVlan
  forceTable := m.toL2
  highest := aclPriority
  meters := m.meters
  exact := exact
  port := port
  tunnels := some (tunnelDict a dyn s)
  flowdel := true

/-- `build_tunnel_acl_rule_ofmsgs`, `faucet/valve_acl.py` 802-843. -/
def aclMsgs (enc : Enc) (m : Mgr) (t : Table) (a : TAcl) (dyn : Dyn) (s : Source) (vid : Nat) : Option (List OfMsg) :=
  if a.acl ∈ m.dpAcls then buildAcls enc (srcCtx m t a dyn s none false) m.dpAcls
  else ((tunnelRulesOf a.acl vid).mapM (fun r =>
    buildRule enc (srcCtx m t a dyn s s.port a.acl.exactMatch) (aclPriority - a.acl.rules.idxOf r) r)).map List.flatten

/-- The sources on this switch whose ACL is built again: `source_vids`, `faucet/valve_stack.py` 387-390, 420-422. -/
def ownPairs (n : Net) (cur l2 : Nat) (a : TAcl) : List (Source × Nat) :=
  (a.sources.filter (fun s => s.dp = cur)).flatMap (fun s =>
    (a.dests.filter (fun e => (fwd n cur l2 e.1 e.2 s).isSome)).map (fun e => (s, e.1)))

/-- The messages about tunnel rules, `faucet/valve_stack.py` 409-417. -/
def pathMsgs (n : Net) (cur l2 : Nat) (t : Table) (a : TAcl) : List OfMsg :=
  a.dests.flatMap (fun e => fwdMsgs n cur l2 t e.1 e.2 a.sources ++ revMsgs n cur l2 t e.1 e.2 a.sources)

/-- `acl_update_tunnel`, `faucet/valve_stack.py` 358-423, on switch `cur`: the new rules and the messages.  The order of
the sources in `source_vids` (first by tunnel) does not matter for the properties stated.  `l2` is `self.output_table`. -/
def update (enc : Enc) (m : Mgr) (n : Net) (cur l2 : Nat) (t : Table) (a : TAcl) (dyn : Dyn) :
    Option (Dyn × List OfMsg) :=
  ((ownPairs n cur l2 a).mapM (fun e => aclMsgs enc m t a (updDyn n cur l2 a dyn) e.1 e.2)).map (fun own =>
    (updDyn n cur l2 a dyn, pathMsgs n cur l2 t a ++ own.flatten))

end Faucet.Tunnel
