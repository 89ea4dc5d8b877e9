import Verif.Reload.Diff

/-!
# Reloading the configuration of one switch

Models `DP.get_config_changes` and its helpers (/repo/faucet/dp.py 1463-1784),
`Valve._apply_config_changes` and `reload_config` (/repo/faucet/valve.py 1556-1716),
`ports_add`/`ports_delete` (valve.py 845-933) and the cold start (valve.py 486-517).

The rules of the managers are not spelled out here (that is done in the areas on flooding, ACLs and
so on): a rule set is represented by everything its generation reads from the configuration, so
"the same rules" means "generated from the same settings".  LACP, stacking and 802.1X ports take
other paths, modelled in their own areas: stacking appears here only in the comparison.
-/

namespace Faucet.Reload

/-! ## The configuration of a switch -/

/-- How a port names a VLAN, config_parser.py 58-75: by its name or by its number. -/
inductive Ref where
  | name (n : Nat)
  | vid (v : Nat)
  deriving DecidableEq, Repr

/-- The section of a port.  `rest` stands for all settings not named. -/
structure PortSec where
  native : Option Ref
  tagged : List Ref
  aclsIn : List Nat
  /-- the ports whose traffic is copied to this one -/
  mirror : List Nat
  external : Bool
  copro : Bool
  outputOnly : Bool
  stacked : Bool
  descr : Nat
  rest : Nat
  deriving DecidableEq, Repr

/-- The section of a VLAN. -/
structure VlanSec where
  name : Nat
  aclsIn : List Nat
  aclsOut : List Nat
  vips : List Nat
  descr : Nat
  rest : Nat
  deriving DecidableEq, Repr

/-- The section of an ACL, its references to ports resolved in place (acl.py 508-543). -/
structure AclSec where
  rules : Nat
  /-- the ports its rules mirror to -/
  mirrors : List Nat
  deriving DecidableEq, Repr

/-- A switch's configuration. -/
structure Dp where
  ports : List (Nat × PortSec)
  vlans : List (Nat × VlanSec)
  acls : List (Nat × AclSec)
  meters : List (Nat × Nat)
  dpAcls : List Nat
  routers : Nat
  /-- the root of the stack, and the number of links of every switch in its graph; `none` if the
  switch has no stack ports, dp.py 1337-1339 -/
  stack : Option (Nat × List (Nat × Nat))
  hardware : Nat
  tableIds : List Nat
  rest : Nat
  deriving DecidableEq, Repr

/-- The VLAN a port refers to. -/
def refVid (d : Dp) : Ref → Option Nat
  | .vid v => some v
  | .name n => (d.vlans.find? (fun kv => kv.2.name == n)).map (·.1)

/-- `port.vlans()`, port.py 497-509, by number. -/
def portVids (d : Dp) (s : PortSec) : List Nat :=
  (s.native.bind (refVid d)).toList ++ s.tagged.filterMap (refVid d)

/-- `port.mirror` after `resolve_mirror_destinations`, dp.py 1017-1037: the ports it is copied to,
or else the ports it copies. -/
def mirrorAttr (d : Dp) (p : Nat) (s : PortSec) : List Nat :=
  let dst := (d.ports.filter (fun q => q.2.mirror.contains p)).map (·.1)
  if dst.isEmpty then s.mirror else dst

/-- `self.has_externals`, dp.py 1351-1354. -/
def hasExternals (d : Dp) : Bool := d.ports.any (fun q => q.2.external)

/-! ## Comparing -/

/-- The section of a port without what `_get_port_config_changes` leaves aside: ACLs (compared
separately) and the description. -/
def PortSec.core (s : PortSec) : PortSec := { s with aclsIn := [], descr := 0 }

/-- The same for a VLAN. -/
def VlanSec.core (s : VlanSec) : VlanSec := { s with aclsIn := [], descr := 0 }

/-- `ignore_subconf` with `acls_in` ignored, and then also the description, dp.py 1421-1429. -/
def samePort (a b : PortSec) : Bool := decide (a.core = b.core)

def sameVlan (a b : VlanSec) : Bool := decide (a.core = b.core)

def sameAcl (a b : AclSec) : Bool := decide (a = b)

/-- `_get_acl_config_changes`, dp.py 1463-1475. -/
def aclChanges (old new : Dp) : List Nat :=
  added old.acls new.acls ++ changed sameAcl old.acls new.acls

/-- `_acl_ref_changes`, dp.py 1515-1536. -/
def aclRefChanged (chAcls : List Nat) (old new : List Nat) : Bool :=
  new.any (fun a => chAcls.contains a) || decide (old ≠ new)

/-- The same for one VLAN or port by number. -/
def refChangedAt {α : Type} (acls : α → List Nat) (chAcls : List Nat) (old new : List (Nat × α))
    (k : Nat) : Bool :=
  match get old k, get new k with
  | some o, some n => aclRefChanged chAcls (acls o) (acls n)
  | _, _ => false

/-- `changed_vlans` of `_get_vlan_config_changes`, dp.py 1477-1513. -/
def vlanChanges (old new : Dp) : List Nat :=
  added old.vlans new.vlans ++ changed sameVlan old.vlans new.vlans ++
    (sames sameVlan old.vlans new.vlans).filter
      (refChangedAt VlanSec.aclsIn (aclChanges old new) old.vlans new.vlans)

/-- What `_get_port_config_changes` and `get_config_changes` return. -/
structure Changes where
  delPorts : List Nat
  chPorts : List Nat
  addPorts : List Nat
  aclPorts : List Nat
  delVlans : List Nat
  chVlans : List Nat
  allPorts : Bool
  delMeters : List Nat
  addMeters : List Nat
  chMeters : List Nat
  deriving DecidableEq, Repr

/-- `topology_changed`, dp.py 1577-1579: raises if the switch no longer stacks. -/
def topologyChanged (old new : Dp) : Option Bool :=
  match old.stack, new.stack with
  | none, _ => some false
  | some _, none => none
  | some (_, a), some (_, b) => some (decide (a ≠ b))

/-- The ports whose own section changed, and the stack ports if the topology did, dp.py 1556-1588. -/
def changedOwn (old new : Dp) (topo : Bool) : List Nat :=
  changed samePort old.ports new.ports ++
    (if topo then
      ((new.ports.filter (fun p => p.2.stacked)).map (·.1)).filter
        (fun p => decide (p ∉ deleted old.ports new.ports ∧ p ∉ added old.ports new.ports))
    else [])

/-- `same_ports`, dp.py 1588. -/
def samePorts (old new : Dp) (topo : Bool) : List Nat :=
  (sames samePort old.ports new.ports).filter (fun p => decide (p ∉ changedOwn old new topo))

/-- The ports on a VLAN of the list, dp.py 1595-1600. -/
def portsOn (d : Dp) (vs : List Nat) : List Nat :=
  (d.ports.filter (fun p => (portVids d p.2).any (fun v => vs.contains v))).map (·.1)

/-- `changed_ports` after looking at changed VLANs, dp.py 1590-1600. -/
def changedByVlan (old new : Dp) (topo : Bool) : List Nat :=
  if (samePorts old new topo).isEmpty then changedOwn old new topo
  else changedOwn old new topo ++ portsOn new (vlanChanges old new)

/-- `all_ports_changed`, dp.py 1590-1601. -/
def allChanged (old new : Dp) (topo : Bool) : Bool :=
  if (samePorts old new topo).isEmpty then true
  else if (vlanChanges old new).isEmpty then false
  else new.ports.all (fun p => (changedByVlan old new topo).contains p.1)

/-- `_add_changed_vlans`, dp.py 1617-1624: the VLANs a changed port left or joined. -/
def vlansMoved (old new : Dp) (p : Nat) : List Nat :=
  match get old.ports p, get new.ports p with
  | some o, some n =>
    (portVids old o).filter (fun v => !((portVids new n).contains v)) ++
      (portVids new n).filter (fun v => !((portVids old o).contains v)) ++
      (if o.stacked = n.stacked then [] else new.vlans.map (·.1))
  | _, _ => []

/-- `_add_changed_vlan_port`, dp.py 1612-1615. -/
def vlansOf (d : Dp) (p : Nat) : List Nat :=
  match get d.ports p with
  | some s => portVids d s ++ (if s.stacked then d.vlans.map (·.1) else [])
  | none => []

/-- Does what a port is mirrored to change, dp.py 1639-1645? -/
def mirrorMoved (old new : Dp) (p : Nat) : Bool :=
  match get old.ports p, get new.ports p with
  | some o, some n => decide (mirrorAttr old p o ≠ mirrorAttr new p n)
  | _, _ => false

/-- `changed_vlans` at the end of `_get_port_config_changes`, dp.py 1603-1656. -/
def allVlanChanges (old new : Dp) (topo : Bool) : List Nat :=
  (if allChanged old new topo then vlanChanges old new
   else vlanChanges old new ++ (changedByVlan old new topo).flatMap (vlansMoved old new) ++
    (deleted old.ports new.ports).flatMap (vlansOf old) ++
    (added old.ports new.ports).flatMap (vlansOf new)).filter
    (fun v => decide (v ∉ deleted old.vlans new.vlans))

/-- `vlan.faucet_vips`. -/
def hasVips (d : Dp) (v : Nat) : Bool :=
  match get d.vlans v with
  | some s => !s.vips.isEmpty
  | none => false

/-- `_get_port_config_changes`, dp.py 1538-1679, with the rest of `get_config_changes`. -/
def portChanges (old new : Dp) (topo : Bool) : Changes :=
  let all := allChanged old new topo
  let ch := changedByVlan old new topo ++
    (if all then [] else (samePorts old new topo).filter (mirrorMoved old new))
  let acl := if all then [] else
    (samePorts old new topo).filter
      (refChangedAt PortSec.aclsIn (aclChanges old new) old.ports new.ports)
  let vl := allVlanChanges old new topo
  ⟨deleted old.ports new.ports, ch, added old.ports new.ports, acl, deleted old.vlans new.vlans, vl,
    all || vl.any (hasVips new), deleted old.meters new.meters, added old.meters new.meters,
    changed (fun a b => decide (a = b)) old.meters new.meters⟩

/-- The cold start by default, dp.py 1768-1784. -/
def coldChanges : Changes := ⟨[], [], [], [], [], [], true, [], [], []⟩

/-- Both configurations stack, with different roots, dp.py 1720-1725. -/
def rootChanged (old new : Dp) : Bool :=
  match old.stack, new.stack with
  | some (a, _), some (b, _) => decide (a ≠ b)
  | _, _ => false

/-- `get_config_changes`, dp.py 1702-1784.  `none`: it raises. -/
def configChanges (old new : Dp) : Option Changes :=
  if rootChanged old new || decide (old.routers ≠ new.routers) ||
      decide (old.rest ≠ new.rest) || decide (old.dpAcls ≠ new.dpAcls) ||
      decide (old.hardware ≠ new.hardware) then some coldChanges
  else (topologyChanged old new).map (portChanges old new)

/-! ## What rules are made from -/

/-- The contents of an ACL. -/
def aclContent (d : Dp) (a : Nat) : Option AclSec := get d.acls a

/-- The ACLs in use, whose mirror ports become output only, dp.py 1124-1129, 1197-1260. -/
def usedAcls (d : Dp) : List Nat :=
  d.vlans.flatMap (fun v => v.2.aclsIn ++ v.2.aclsOut) ++ d.ports.flatMap (fun p => p.2.aclsIn) ++
    d.dpAcls

/-- Is this port the target of an ACL's mirror action? -/
def aclMirrored (d : Dp) (p : Nat) : Bool :=
  (usedAcls d).any (fun a => match aclContent d a with
    | some s => s.mirrors.contains p
    | none => false)

/-- `port.output_only` after resolution, dp.py 1036-1037, 1127-1129. -/
def outOnly (d : Dp) (p : Nat) (s : PortSec) : Bool :=
  s.outputOnly || (!s.mirror.isEmpty && !s.copro) || aclMirrored d p

/-- Does a VLAN have an ACL, which decides where its ports' packets go next,
valve_switch_standalone.py 553-556? -/
def vlanHasAcl (d : Dp) (v : Nat) : Bool :=
  match get d.vlans v with
  | some s => !s.aclsIn.isEmpty
  | none => false

/-- What a port's rules are made from: `add_port` of the switch manager
(valve_switch_standalone.py 558-628), of the pipeline (valve_pipeline.py 179-187), of LLDP and
output-only ports, and of coprocessor ports (valve_coprocessor.py 46-90), which have a rule for
every port of the switch. -/
structure PortIn where
  core : PortSec
  native : Option (Nat × Bool)
  tagged : List (Nat × Bool)
  mirror : List Nat
  outOnly : Bool
  externals : Bool
  others : List Nat
  deriving DecidableEq, Repr

def portIn (d : Dp) (p : Nat) (s : PortSec) : PortIn :=
  ⟨s.core, (s.native.bind (refVid d)).map (fun v => (v, vlanHasAcl d v)),
    (s.tagged.filterMap (refVid d)).map (fun v => (v, vlanHasAcl d v)),
    mirrorAttr d p s, outOnly d p s, hasExternals d, if s.copro then d.ports.map (·.1) else []⟩

/-- What a port's ACL rules are made from, valve_acl.py 477-508. -/
structure AclIn where
  acls : List (Option AclSec)
  outOnly : Bool
  deriving DecidableEq, Repr

def aclIn (d : Dp) (p : Nat) (s : PortSec) : AclIn :=
  ⟨s.aclsIn.map (aclContent d), outOnly d p s⟩

/-- What the flooding rules of a VLAN are made from, valve_switch_standalone.py 529-540, 669-678:
the VLAN, and the ports on it that are up, each with how it is on it.  Rules also name ports that
are down, where nothing can come out: they are left out here. -/
structure FloodIn where
  core : VlanSec
  members : List (Nat × Bool × PortSec × Bool)
  externals : Bool
  deriving DecidableEq, Repr

/-- Is a port on a VLAN? -/
def onVlan (d : Dp) (v : Nat) (s : PortSec) : Bool := (portVids d s).contains v

/-- The ports of a VLAN that are up, with whether it is their native VLAN. -/
def members (d : Dp) (phys : Nat → Bool) (v : Nat) : List (Nat × Bool × PortSec × Bool) :=
  (d.ports.filter (fun p => phys p.1 && onVlan d v p.2)).map
    (fun p => (p.1, decide (p.2.native.bind (refVid d) = some v), p.2.core, outOnly d p.1 p.2))

def floodIn (d : Dp) (phys : Nat → Bool) (v : Nat) (s : VlanSec) : FloodIn :=
  ⟨s.core, members d phys v, hasExternals d⟩

/-- What a VLAN's ACL rules are made from, valve_acl.py 533-562. -/
structure VaclIn where
  ins : List (Option AclSec)
  outs : List (Option AclSec)
  deriving DecidableEq, Repr

def vaclIn (d : Dp) (s : VlanSec) : VaclIn :=
  ⟨s.aclsIn.map (aclContent d), s.aclsOut.map (aclContent d)⟩

/-! ## The switch -/

/-- The rules on the switch, by what they were made from, and which ports the controller takes to be
up (`dyn_phys_up`). -/
structure Sw where
  port : Nat → Option PortIn
  acl : Nat → Option AclIn
  flood : Nat → Option FloodIn
  vacl : Nat → Option VaclIn
  dp : List (Option AclSec)
  phys : Nat → Bool

/-- The rules after a cold start, valve.py 486-517, with these ports up. -/
def cold (d : Dp) (up : Nat → Bool) : Sw :=
  ⟨fun p => if up p then (get d.ports p).map (portIn d p) else none,
   fun p => if up p then (get d.ports p).map (aclIn d p) else none,
   fun v => (get d.vlans v).map (floodIn d up v),
   fun v => (get d.vlans v).map (vaclIn d),
   d.dpAcls.map (aclContent d), fun p => up p && (get d.ports p).isSome⟩

/-- The VLANs of ports of this list that are configured. -/
def vlansOfPorts (d : Dp) (ps : List Nat) : List Nat :=
  ps.flatMap (fun p => match get d.ports p with
    | some s => portVids d s
    | none => [])

/-- `add_vlans`, valve.py 436-450. -/
def addVlans (d : Dp) (vs : List Nat) (w : Sw) : Sw :=
  ⟨w.port, w.acl,
   fun v => if vs.contains v then (get d.vlans v).map (floodIn d w.phys v) else w.flood v,
   fun v => if vs.contains v then (get d.vlans v).map (vaclIn d) else w.vacl v, w.dp, w.phys⟩

/-- `del_vlans`, valve.py 452-468. -/
def delVlans (vs : List Nat) (w : Sw) : Sw :=
  ⟨w.port, w.acl, fun v => if vs.contains v then none else w.flood v,
   fun v => if vs.contains v then none else w.vacl v, w.dp, w.phys⟩

/-- `update_vlan` for these VLANs, valve_switch_standalone.py 550-551: flooding rules only. -/
def updateVlans (d : Dp) (vs : List Nat) (w : Sw) : Sw :=
  ⟨w.port, w.acl,
   fun v => if vs.contains v then (get d.vlans v).map (floodIn d w.phys v) else w.flood v,
   w.vacl, w.dp, w.phys⟩

/-- `ports_delete`, valve.py 897-933. -/
def portsDelete (d : Dp) (ps : List Nat) (w : Sw) : Sw :=
  let gone := fun p => ps.contains p && (get d.ports p).isSome
  updateVlans d (vlansOfPorts d ps)
    ⟨fun p => if gone p then none else w.port p, fun p => if gone p then none else w.acl p,
     w.flood, w.vacl, w.dp, fun p => !(gone p) && w.phys p⟩

/-- `ports_add`, valve.py 845-885. -/
def portsAdd (d : Dp) (ps : List Nat) (w : Sw) : Sw :=
  let here := fun p => ps.contains p && (get d.ports p).isSome
  addVlans d (vlansOfPorts d ps)
    ⟨fun p => if here p then (get d.ports p).map (portIn d p) else w.port p,
     fun p => if here p then (get d.ports p).map (aclIn d p) else w.acl p,
     w.flood, w.vacl, w.dp, fun p => here p || w.phys p⟩

/-- `acl_manager.cold_start_port` for these ports, valve.py 1670-1673, valve_acl.py 517-523. -/
def aclRestart (d : Dp) (ps : List Nat) (w : Sw) : Sw :=
  ⟨w.port, fun p => if ps.contains p then (get d.ports p).map (aclIn d p) else w.acl p,
   w.flood, w.vacl, w.dp, w.phys⟩

/-- `clone_dyn_state`, dp.py 334-342, port.py 298-306: a port that is new is taken to be down. -/
def cloneState (new : Dp) (w : Sw) : Sw :=
  ⟨w.port, w.acl, w.flood, w.vacl, w.dp, fun p => (get new.ports p).isSome && w.phys p⟩

/-- What a reload comes to, valve.py 1556-1680. -/
inductive Restart where
  | none
  | warm
  | cold
  deriving DecidableEq, Repr

/-- `_pipeline_change`, valve.py 1556-1570. -/
def pipelineChange (old new : Dp) : Bool :=
  decide (old.hardware ≠ new.hardware) || decide (old.tableIds ≠ new.tableIds)

/-- Is any of the changes not empty, valve.py 1617-1621? -/
def anyChange (c : Changes) : Bool :=
  !(c.delPorts.isEmpty && c.chPorts.isEmpty && c.addPorts.isEmpty && c.aclPorts.isEmpty &&
    c.delVlans.isEmpty && c.chVlans.isEmpty && c.delMeters.isEmpty && c.addMeters.isEmpty &&
    c.chMeters.isEmpty) || c.allPorts

/-- Which restart, valve.py 1605-1626. -/
def restartOf (old new : Dp) (c : Changes) : Restart :=
  if pipelineChange old new || c.allPorts then .cold
  else if anyChange c then .warm else .none

/-- The warm restart, valve.py 1628-1680.  `up` is `dyn_up_port_nos`.  A port or VLAN that is in none
of the changes is sent no message. -/
def warm (old new : Dp) (c : Changes) (up : Nat → Bool) (w : Sw) : Sw :=
  let w1 := portsDelete old c.chPorts (portsDelete old c.delPorts w)
  let w2 := cloneState new (delVlans c.delVlans w1)
  let w3 := portsAdd new (c.chPorts.filter up) (portsAdd new (c.addPorts.filter up) w2)
  addVlans new c.chVlans (delVlans c.chVlans (aclRestart new c.aclPorts w3))

/-- `reload_config`, valve.py 1682-1716: after a cold restart the switch reconnects and is set up
again. -/
def reload (old new : Dp) (up : Nat → Bool) (w : Sw) : Option (Restart × Sw) :=
  (configChanges old new).map (fun c => match restartOf old new c with
    | .none => (.none, cloneState new w)
    | .warm => (.warm, warm old new c up w)
    | .cold => (.cold, cold new up))

end Faucet.Reload
