import Verif.AclSw.Shift
import Verif.Acl.Ports
import Verif.L2.DeliverySpec

/-!
# One standalone switch whose ports have ACLs

A switch as in the area `L2`, whose datapath also has the table for the ACLs of ports (`faucet/dp.py` 452-499 and 521-576).
That table comes first. What FAUCET puts into it is in the area `Acl` (`faucet/valve_acl.py` 480-523). What it puts into the
other tables is what the area `L2` says, with every table number one higher: `Faucet.AclSw.shift_id` says that this is what
`faucet/dp.py` 565-576 numbers the tables.

Not modelled: ACLs of VLANs and of the whole datapath, 802.1X, and what the areas `Acl` and `L2` leave out.
-/

namespace Faucet.AclSw
open Faucet.OF

/-- A configuration: that of the switch, and the meters that ACLs may name. The ACLs of the ports are part of the state, as
they may be changed at any time. -/
structure SCfg where
  l2 : L2.Cfg
  meters : Dict Nat Nat := []

/-- The ACLs of the ports, by number. -/
abbrev AclsOf := Nat → List Acl.Acl

/-- The tables, `faucet/dp.py` 448-576. -/
def SCfg.conf (c : SCfg) : Pipeline.Conf := { c.l2.conf with portAcls := true }

/-- The table for ACLs of ports. -/
def SCfg.aclTable (c : SCfg) : Table := ⟨Pipeline.idOf c.conf .portAcl, 0⟩

/-- What the ACL manager is given, `faucet/valve.py` 235-244, and `accept_to_vlan`, `accept_to_classification`,
`accept_to_l2_forwarding` and `accept_to_egress`, `faucet/valve_pipeline.py` 50-104. -/
def SCfg.mgr (c : SCfg) : Acl.Mgr where
  portTable := some c.aclTable
  toVlan := Pipeline.idOf c.conf .vlan
  toClass := Pipeline.idOf c.conf (Pipeline.classTable c.conf)
  toL2 := Pipeline.idOf c.conf (Pipeline.outTable c.conf)
  toEgress := Pipeline.idOf c.conf .egress
  meters := c.meters

/-- A port as the ACL manager sees it. -/
def aport (acls : AclsOf) (p : L2.LPort) : Acl.Port where
  number := p.number
  aclsIn := acls p.number
  outputOnly := p.outputOnly

/-- The ACL part of `ports_add`, `faucet/valve.py` 858-880, for several ports; `none` is an exception. -/
def addPorts (enc : Acl.Enc) (c : SCfg) (acls : AclsOf) : List L2.LPort → Option (List OfMsg)
  | [] => some []
  | p :: ps => (Acl.addPort enc c.mgr (aport acls p)).bind (fun ms => (addPorts enc c acls ps).map (ms ++ ·))

/-- The ports that `ports_add` adds at a cold start. -/
def SCfg.started (c : SCfg) (up : List Nat) : List L2.LPort := c.l2.ports.filter (fun p => up.contains p.number && p.enabled)

/-- What FAUCET sends for the ACL table on an event: at a cold start the default rule (`faucet/valve.py` 395-411) and the rules of
every port that is up and enabled; those of a port that comes up (`faucet/valve.py` 845-885); when a port goes down its
rules are deleted (`_port_delete_flows_state`, `faucet/valve.py` 831-837, called from `ports_delete`, 897-935, for ports without LACP). -/
def SCfg.aclMsgs (c : SCfg) (enc : Acl.Enc) (acls : AclsOf) : L2.Ev → Option (List OfMsg)
  | .connect _ up _ => (addPorts enc c acls (c.started up)).map (c.aclTable.flowdrop [] 0 :: ·)
  | .portUp _ n _ =>
    match c.l2.find n with
    | some p => if p.enabled then Acl.addPort enc c.mgr (aport acls p) else some []
    | none => some []
  | .portDown _ n _ =>
    match c.l2.find n with
    | some p => some (Acl.delPort c.mgr (aport acls p))
    | none => some []
  | _ => some []

/-- Controller, switch, what the switch sent to FAUCET, and the ACLs of the ports. -/
structure Sys where
  l2 : L2.Sys
  acls : AclsOf

/-- The ACLs of one port are changed; the rest of the configuration stays. -/
def setAcls (acls : AclsOf) (n : Nat) (new : List Acl.Acl) : AclsOf := fun i => if i = n then new else acls i

/-- **Reachable states**, with the ports that the switch last reported to be up. The switch may start with any flows and first
connects. Then, in any order: events; packets that `ok` allows come in; flows with a timeout time out; and the ACLs of a
port are changed (`cold_start_port`, `faucet/valve.py` 1668-1671, while the switch is connected). The ACLs there ever are meet `cfgs`.
The messages for the ACL table are sent after those for the others. FAUCET sends them in one batch; they concern different
tables, but for the delete of everything at a cold start, which comes before both (`faucet/valve.py` 425-441,
`Faucet.FlowReorder.reorder_refines`). -/
inductive Run (c : SCfg) (enc : Acl.Enc) (cfgs : AclsOf → Prop) (ok : Pkt → Prop) : Sys → (Nat → Bool) → Prop
  | start {sw0 : Switch} {acls now up lag ms ctl sh bar out am} : cfgs acls → (∀ l, (sh l).Perm l) →
      c.l2.react L2.Ctl.init (.connect now up lag) = some (ms, ctl) → FlowReorder.reorder sh bar ms = some out →
      c.aclMsgs enc acls (.connect now up lag) = some am →
      Run c enc cfgs ok ⟨⟨ctl, (Switch.execAll sw0 (out.map OfMsg.shift)).execAll am, fun _ => False⟩, acls⟩ (fun i => up.contains i)
  | event {s u ev ms ctl sh bar out am} : Run c enc cfgs ok s u → (∀ l, (sh l).Perm l) →
      (∀ now k, ev = .packetIn now k → s.l2.seen k) → c.l2.react s.l2.ctl ev = some (ms, ctl) →
      FlowReorder.reorder sh bar ms = some out → c.aclMsgs enc s.acls ev = some am →
      Run c enc cfgs ok ⟨⟨ctl, (s.l2.sw.execAll (out.map OfMsg.shift)).execAll am, s.l2.seen⟩, s.acls⟩ (ev.upAfter u)
  | packet {s u k es} : Run c enc cfgs ok s u → ok k → Proc s.l2.sw 0 k es →
      Run c enc cfgs ok ⟨⟨s.l2.ctl, s.l2.sw, fun x => s.l2.seen x ∨ ∃ e ∈ es, e.port = portController ∧ x = L2.Emit.toPacketIn e⟩, s.acls⟩ u
  | timeout {s u sl b} : Run c enc cfgs ok s u → s.l2.sw.flows sl = some b → b.hard ≠ 0 ∨ b.idle ≠ 0 →
      Run c enc cfgs ok ⟨⟨s.l2.ctl, ⟨fun x => if x = sl then none else s.l2.sw.flows x, s.l2.sw.groups, s.l2.sw.meters⟩, s.l2.seen⟩, s.acls⟩ u
  | aclChange {s u p new am} : Run c enc cfgs ok s u → s.l2.ctl.running = true → p ∈ c.l2.ports →
      cfgs (setAcls s.acls p.number new) → Acl.coldStartPort enc c.mgr (aport (setAcls s.acls p.number new) p) = some am →
      Run c enc cfgs ok ⟨⟨s.l2.ctl, s.l2.sw.execAll am, s.l2.seen⟩, setAcls s.acls p.number new⟩ u

end Faucet.AclSw
