import Verif.Actions.Model
import Verif.Encoding.Model

/-!
# Flooding on one switch

`faucet/valve_switch_standalone.py` (flood rules), `faucet/vlan.py` (member lists, LAG exclusion), `faucet/valve_of.py`
(flood outputs). Configuration and dynamic state of a port are one record. FAUCET compares ports by configuration; port
numbers are unique in a datapath, so the model compares numbers.
-/

namespace Faucet.Flood
open Faucet.OF Faucet.Actions

/-- What flooding reads of a `Port` (`faucet/port.py` 200-318 and 484-545). -/
structure FPort where
  number : Nat
  hairpin : Bool := false
  /-- numbers of the ports to mirror to: `faucet/dp.py` 1017-1037 -/
  mirror : List Nat := []
  /-- bundle number, 0 for none -/
  lacp : Nat := 0
  /-- `is_port_selected()`, `is_actor_up()`: `faucet/port.py` 644-692 -/
  selected : Bool := false
  actorUp : Bool := false
  physUp : Bool := true
  external : Bool := false
  restricted : Bool := false
  unicastFlood : Bool := true
  dot1xVid : Option Nat := none
deriving DecidableEq, Repr

/-- What flooding reads of a `VLAN`. -/
structure FVlan where
  vid : Nat
  tagged : List FPort := []
  untagged : List FPort := []
  dot1xUntagged : List FPort := []
  unicastFlood : Bool := true
deriving DecidableEq, Repr

/-- `port in list`. -/
def hasPort (l : List FPort) (p : FPort) : Bool := l.any (fun q => q.number == p.number)

/-- `VLAN.get_ports`, `faucet/vlan.py` 500-502. -/
def FVlan.ports (v : FVlan) : List FPort := v.tagged ++ v.untagged ++ v.dot1xUntagged

/-- `VLAN.lacp_ports`, `faucet/vlan.py` 526-529. -/
def FVlan.lacpPorts (v : FVlan) : List FPort := v.ports.filter (fun p => p.lacp != 0)

/-- `VLAN.lacp_up_selected_ports`, `faucet/vlan.py` 531-540. -/
def FVlan.lacpUpSelected (v : FVlan) : List FPort := v.lacpPorts.filter (fun p => p.selected && p.actorUp)

/-- `VLAN.lags()[lag]`, `faucet/vlan.py` 542-547. -/
def FVlan.lag (v : FVlan) (n : Nat) : List FPort := v.lacpPorts.filter (fun p => p.lacp == n)

/-- `VLAN.selected_up_lags()[lag]`, `faucet/vlan.py` 549-554. -/
def FVlan.selectedLag (v : FVlan) (n : Nat) : List FPort := v.lacpUpSelected.filter (fun p => p.lacp == n)

/-- `ports.remove(x)`: drop the first equal element. -/
def removeFirst : List FPort → FPort → List FPort
  | [], _ => []
  | q :: l, p => if q.number = p.number then l else q :: removeFirst l p

/-- Loop body of `excluded_lag_ports`, `faucet/vlan.py` 568-572: members of one bundle not to flood to. -/
def FVlan.lagRest (v : FVlan) (n : Nat) : List FPort :=
  match v.selectedLag n with
  | [] => v.lag n
  | s :: _ => removeFirst (v.lag n) s

/-- The bundle numbers: keys of `VLAN.lags()`. -/
def FVlan.lagIds (v : FVlan) : List Nat := mkSet (v.lacpPorts.map FPort.lacp)

/-- Members of the bundle of the ingress port, `faucet/vlan.py` 565-567. -/
def FVlan.sameLag (v : FVlan) : Option FPort → List FPort
  | some p => if p.lacp = 0 then [] else v.lag p.lacp
  | none => []

/-- `VLAN.excluded_lag_ports`, `faucet/vlan.py` 559-575. -/
def FVlan.excludedLag (v : FVlan) (inPort : Option FPort) : List FPort :=
  v.sameLag inPort ++ v.lagIds.flatMap v.lagRest

/-- `VLAN.exclude_native_if_dot1x`, `faucet/vlan.py` 577-585. -/
def FVlan.excludeNative (v : FVlan) : List FPort :=
  v.untagged.filter (fun p => match p.dot1xVid with | none => false | some d => d != v.vid)

/-- `VLAN.flood_ports`, `faucet/vlan.py` 587-592. -/
def floodPorts (ports : List FPort) (excludeUnicast : Bool) : List FPort :=
  if excludeUnicast then ports.filter (fun p => p.unicastFlood) else ports

def FVlan.taggedFlood (v : FVlan) (eu : Bool) : List FPort := floodPorts v.tagged eu
def FVlan.untaggedFlood (v : FVlan) (eu : Bool) : List FPort := floodPorts (v.untagged ++ v.dot1xUntagged) eu

/-- `loop_protect_external_ports` and `..._up`, `faucet/vlan.py` 514-524. -/
def FVlan.externals (v : FVlan) : List FPort := v.ports.filter (fun p => p.external)
def FVlan.externalsUp (v : FVlan) : List FPort := v.externals.filter (fun p => p.physUp)

/-- `DP.canonical_port_order`, `faucet/dp.py` 886-889. -/
def canonical (l : List FPort) : List FPort := isort (fun a b => decide (a.number ≤ b.number)) l

/-- `in_port is not None and in_port.loop_protect_external`. -/
def inExternal : Option FPort → Bool
  | some p => p.external
  | none => false

/-- Lines 203-212 of `faucet/valve_switch_standalone.py`: external ports not to flood to. -/
def FVlan.excludedExternal (v : FVlan) (inPort : Option FPort) (allExternal : Bool) : List FPort :=
  if allExternal || inExternal inPort then canonical v.externalsUp
  else (canonical v.externalsUp).tail

/-- `exclude_ports` of `_build_flood_local_rule_actions`, `faucet/valve_switch_standalone.py` 201-214. -/
def FVlan.excluded (v : FVlan) (inPort : Option FPort) (allExternal exclRestricted : Bool) : List FPort :=
  v.excludedLag inPort ++ v.excludeNative ++ v.excludedExternal inPort allExternal
    ++ (if exclRestricted then v.ports.filter (fun p => p.restricted) else [])

/-- `port == in_port`. -/
def isIn (inPort : Option FPort) (p : FPort) : Bool :=
  match inPort with
  | some i => p.number == i.number
  | none => false

/-- Set equality of `ports_from_output_port_acts` results. -/
def sameSet (a b : List Nat) : Bool := a.all (fun x => b.contains x) && b.all (fun x => a.contains x)

/-- Whether the mirror actions of an output port are added, `faucet/valve_of.py` 1299-1303. -/
def addMirror (inPort : Option FPort) (p : FPort) : Bool :=
  match inPort with
  | none => true
  | some i => !sameSet i.mirror p.mirror

/-- Loop body of `flood_tagged_port_outputs`, `faucet/valve_of.py` 1290-1303. -/
def portOutputs (inPort : Option FPort) (excl : List FPort) (p : FPort) : List Action :=
  if isIn inPort p then (if p.hairpin then [.output portInPort] else [])
  else if hasPort excl p then []
  else .output p.number :: (if addMirror inPort p then p.mirror.map Action.output else [])

/-- `flood_tagged_port_outputs`, `faucet/valve_of.py` 1281-1304. -/
def floodTagged (ports : List FPort) (inPort : Option FPort) (excl : List FPort) : List Action :=
  dedupeOutputs (ports.flatMap (portOutputs inPort excl))

/-- `flood_untagged_port_outputs`, `faucet/valve_of.py` 1307-1314. -/
def floodUntagged (ports : List FPort) (inPort : Option FPort) (excl : List FPort) : List Action :=
  let acts := floodTagged ports inPort excl
  if acts = [] then [] else .popVlan :: acts

/-- `flood_port_outputs`, `faucet/valve_of.py` 1317-1321. -/
def floodOutputs (tagged untagged : List FPort) (inPort : Option FPort) (excl : List FPort) : List Action :=
  floodTagged tagged inPort excl ++ floodUntagged untagged inPort excl

/-- `_build_flood_local_rule_actions`, `faucet/valve_switch_standalone.py` 192-219. -/
def FVlan.localActs (v : FVlan) (eu : Bool) (inPort : Option FPort) (allExternal exclRestricted : Bool) : List Action :=
  floodOutputs (v.taggedFlood eu) (v.untaggedFlood eu) inPort (v.excluded inPort allExternal exclRestricted)

/-- `_build_flood_rule_actions`, `faucet/valve_switch_standalone.py` 221-243. -/
def FVlan.ruleActs (v : FVlan) (eu : Bool) (inPort : Option FPort) (allExternal exclRestricted : Bool) : List Action :=
  (if v.externals ≠ [] ∧ v.taggedFlood eu ≠ [] then [Action.setField fVlanPcp pcpExt] else [])
    ++ v.localActs eu inPort allExternal exclRestricted

/-! ## Rules -/

/-- A row of `FLOOD_DSTS`: unicast, EtherType, destination and mask. -/
structure Row where
  unicast : Bool
  ethType : Option Nat
  dst : Option (Nat × Nat)
deriving DecidableEq, Repr

/-- `FLOOD_DSTS`, `faucet/valve_switch_standalone.py` 37-64. -/
def floodDsts : List Row := [
  ⟨true, none, none⟩,
  ⟨false, none, some (0x0180C2000000, Encoding.macByteMask 3)⟩,
  ⟨false, none, some (0x01005E000000, Encoding.macByteMask 3)⟩,
  ⟨false, none, some (0x333300000000, Encoding.macByteMask 2)⟩,
  ⟨false, none, some (0xFFFFFFFFFFFF, Encoding.macByteMask 6)⟩]

/-- `RESTRICTED_FLOOD_DISTS`, `faucet/valve_switch_standalone.py` 65-91. -/
def restrictedDsts : List Row := [
  ⟨false, some 0x0806, some (0xFFFFFFFFFFFF, Encoding.macByteMask 6)⟩,
  ⟨false, some 0x86DD, some (0x3333FF000000, Encoding.macByteMask 3)⟩,
  ⟨false, some 0x86DD, some (0x333300000002, Encoding.macByteMask 6)⟩,
  ⟨false, some 0x86DD, some (0x333300000001, Encoding.macByteMask 6)⟩]

/-- Settings of the switch manager: `faucet/valve_switch_standalone.py` 93-162. -/
structure FCfg where
  table : Table
  combinatorial : Bool := false
  useGroups : Bool := false
  restrictedBcast : Bool := false
deriving DecidableEq, Repr

def FCfg.rows (c : FCfg) : List Row := if c.restrictedBcast then floodDsts ++ restrictedDsts else floodDsts

/-- `_mask_flood_priority`, `faucet/valve_switch_standalone.py` 183-185; `flood_priority` is `_MATCH_PRIORITY`. -/
def maskPriority (mask : Option Nat) : Nat := matchPriority + Encoding.macMaskBits mask

/-- `_vlan_flood_priority`, `faucet/valve_switch_standalone.py` 253-258. -/
def Row.priority (r : Row) : Nat := maskPriority (r.dst.map Prod.snd) + r.ethType.getD 0

/-- The match of a row, fields in the order the library keeps. -/
def Row.items (r : Row) (vid : Nat) (inPort : Option Nat) : List MatchItem :=
  (match inPort with | some p => [⟨fInPort, p, none⟩] | none => [])
    ++ (match r.dst with | some (d, m) => [⟨fEthDst, d, some m⟩] | none => [])
    ++ (match r.ethType with | some e => [⟨fEthType, e, none⟩] | none => [])
    ++ [⟨fVlanVid, vidPresent vid, none⟩]

/-- `_build_flood_rule`, `faucet/valve_switch_standalone.py` 245-251. -/
def floodRule (c : FCfg) (cmd : FlowCmd) (items : List MatchItem) (prio : Nat) (acts : List Action) : OfMsg :=
  .flow { cmd := cmd, table := c.table.id, priority := prio, mtch := ⟨items, 0⟩, cookie := c.table.cookie,
          inst := trimInst [.apply acts] }

/-- `_build_flood_rule_for_vlan` actions, `faucet/valve_switch_standalone.py` 260-284: no ingress port, restricted ports
always excluded. -/
def FVlan.vlanActs (v : FVlan) (eu : Bool) : List Action := v.ruleActs eu none false true

/-- `_build_flood_acts_for_port`, `faucet/valve_switch_standalone.py` 286-318. -/
def FVlan.portActs (v : FVlan) (eu : Bool) (p : FPort) (allExternal exclRestricted : Bool) :
    List Action × List Nat × List Action :=
  if p.physUp then
    let r := outputNonOutput (v.ruleActs eu (some p) allExternal (exclRestricted && p.restricted))
    if r.2.1 = [] then ([], [], []) else r
  else ([], [], [])

/-- `_build_flood_rule_for_port`, `faucet/valve_switch_standalone.py` 320-356. -/
def portRule (c : FCfg) (cmd : FlowCmd) (v : FVlan) (r : Row) (p : FPort) (acts : List Action) : OfMsg :=
  floodRule c cmd (r.items v.vid (some p.number)) (r.priority + 1) acts

/-- Set equality of lists of actions. -/
def sameActs (a b : List Action) : Bool := a.all (fun x => b.contains x) && b.all (fun x => a.contains x)

/-- Lines 402-439 of `faucet/valve_switch_standalone.py`: the rule of one port next to a VLAN rule. -/
def besideVlan (c : FCfg) (cmd : FlowCmd) (coldStart : Bool) (v : FVlan) (r : Row) (p : FPort) : List OfMsg :=
  let vl := outputNonOutput (v.vlanActs r.unicast)
  let pa := v.portActs r.unicast p false r.ethType.isNone
  if pa.1 = [] then []
  else if sameSet (vl.2.1.filter (fun n => n != p.number)) pa.2.1 && sameActs vl.2.2 pa.2.2 then
    if coldStart then [] else [c.table.flowdel (r.items v.vid (some p.number)) (r.priority + 1)]
  else [portRule c cmd v r p pa.1]

/-- Rule of one port in combinatorial mode, lines 370-388. -/
def combinatorialRule (c : FCfg) (cmd : FlowCmd) (v : FVlan) (r : Row) (p : FPort) : List OfMsg :=
  let pa := v.portActs r.unicast p false r.ethType.isNone
  if pa.1 = [] then [] else [portRule c cmd v r p pa.1]

/-- `_build_mask_flood_rules`, `faucet/valve_switch_standalone.py` 358-441. -/
def maskRules (c : FCfg) (cmd : FlowCmd) (coldStart : Bool) (v : FVlan) (r : Row) : List OfMsg :=
  if c.combinatorial then (floodPorts v.ports r.unicast).flatMap (combinatorialRule c cmd v r)
  else (if c.useGroups then [] else [floodRule c cmd (r.items v.vid none) r.priority (v.vlanActs r.unicast)])
    ++ (floodPorts v.ports r.unicast).flatMap (besideVlan c cmd coldStart v r)

/-- Rows used for a VLAN, `faucet/valve_switch_standalone.py` 446-448. -/
def rowUsed (v : FVlan) (r : Row) : Bool := !(r.unicast && !v.unicastFlood)

/-- `_build_multiout_flood_rules`, `faucet/valve_switch_standalone.py` 443-462. -/
def multioutRules (c : FCfg) (cmd : FlowCmd) (coldStart : Bool) (v : FVlan) : List OfMsg :=
  (c.rows.filter (rowUsed v)).flatMap (maskRules c cmd coldStart v)

/-- `VLAN_GROUP_OFFSET`, `faucet/valve_of.py` 62. -/
def vlanGroupOffset : Nat := 4096

/-- Group used for a row, `faucet/valve_switch_standalone.py` 466-498. -/
def groupFor (v : FVlan) (unicast : Bool) : Nat × List (List Action) :=
  let all := v.vlanActs false
  let uni := outputNonOutput (v.vlanActs true)
  if unicast && !sameSet uni.2.1 (outputNonOutput all).2.1 then (v.vid + vlanGroupOffset, floodBuckets uni.1)
  else (v.vid, floodBuckets all)

/-- `groupadd`, `faucet/valve_of.py`: delete, then add. -/
def groupAdd (g : Nat × List (List Action)) : List OfMsg :=
  [.group ⟨.delete, some g.1, []⟩, .group ⟨.add, some g.1, g.2⟩]

/-- `_build_group_flood_rules`, `faucet/valve_switch_standalone.py` 464-518. -/
def groupRules (c : FCfg) (cmd : FlowCmd) (v : FVlan) : List OfMsg :=
  groupAdd (groupFor v false) ++ groupAdd (groupFor v true)
    ++ (c.rows.filter (rowUsed v)).map (fun r =>
      floodRule c cmd (r.items v.vid none) r.priority [.group (groupFor v r.unicast).1])

/-- `_build_flood_rules`, `faucet/valve_switch_standalone.py` 669-677. -/
def floodRules (c : FCfg) (v : FVlan) (coldStart : Bool) (modify : Bool := false) : List OfMsg :=
  let cmd := if modify then FlowCmd.modifyStrict else .add
  multioutRules c cmd coldStart v ++ (if c.useGroups then groupRules c cmd v else [])

/-- `initialise_tables`, `faucet/valve_switch_standalone.py` 160-175: protocols that must not be forwarded. -/
def reservedDsts : List (Nat × Nat) := [
  (0x01000CCCCCCC, Encoding.macByteMask 6), (0x01000CCCCCCD, Encoding.macByteMask 6), (0x0180C2000000, 0xFFFFFFFFFFF0)]

def initialise (c : FCfg) : List OfMsg :=
  reservedDsts.map (fun d => c.table.flowdrop [⟨fEthDst, d.1, some d.2⟩] (maskPriority (some d.2)))

end Faucet.Flood
