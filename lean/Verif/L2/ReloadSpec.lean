import Verif.L2.ReloadModel
import Verif.L2.DeliverySpec
import Verif.L2.Events

/-!
# One standalone switch: specification of reloads (C64)

Which new configurations FAUCET may be given, and the states that can be reached when events, packets, timeouts and new
configurations come in any order.
-/

namespace Faucet.L2
open Faucet.OF

/-- Only ports and VLANs are different. -/
def SameDp (c c' : Cfg) : Prop := c' = { c with ports := c'.ports, vlans := c'.vlans }

/-- Ports are in the order of their numbers. -/
def Cfg.InOrder (c : Cfg) : Prop := c.ports.Pairwise (fun p q => p.number < q.number)

/-- The same sections of the file give the same VLANs and ports. The mirrors of a port come from the sections of other ports.
A port's section names VLANs; the section of such a VLAN may be another one. -/
structure Sections.Ok (sec : Sections) (c c' : Cfg) : Prop where
  vlan : ∀ v ∈ c.vlans, ∀ v' ∈ c'.vlans, v.vid = v'.vid → sec.vlan v.vid = true → v' = v
  port : ∀ p ∈ c.ports, ∀ p' ∈ c'.ports, p.number = p'.number → sec.port p.number = true →
    p' = { p with mirror := p'.mirror } ∨ ∃ v' ∈ c'.vlans, p'.In v'.vid ∧ ((∀ v ∈ c.vlans, v.vid ≠ v'.vid) ∨ sec.vlan v'.vid = false)

/-- The port with this number is in the VLAN. -/
def Cfg.Member (c : Cfg) (vid n : Nat) : Prop := ∃ p ∈ c.ports, p.number = n ∧ p.In vid

/-- The VLAN's section is another one, or a port joins or leaves the VLAN. -/
def Touched (c c' : Cfg) (sec : Sections) (vid : Nat) : Prop :=
  sec.vlan vid = false ∨ ∃ n, ¬ (c.Member vid n ↔ c'.Member vid n)

/-- **The new configurations of C64**, that FAUCET takes without restarting the switch cold. See the defects for what can
happen otherwise. -/
structure Reloadable (c c' : Cfg) (sec : Sections) : Prop where
  wf : c'.WF
  basic : c'.Basic
  order : c.InOrder ∧ c'.InOrder
  dp : SameDp c c'
  sections : sec.Ok c c'
  warm : allChanged c c' sec = false
  /-- a port that stays in a VLAN, that is not touched otherwise, stays tagged or untagged and keeps its mirrors -/
  stays : ∀ p ∈ c.ports, ∀ p' ∈ c'.ports, p.number = p'.number → ∀ vid, p.In vid → p'.In vid →
    Touched c c' sec vid ∨ ((p.native = some vid ↔ p'.native = some vid) ∧ p.mirror = p'.mirror)
  /-- gateways keep their addresses -/
  gateways : ∀ v ∈ c.vlans, ∃ v' ∈ c'.vlans, v'.faucetMac = v.faucetMac
  /-- limits on the number of hosts are not all lifted -/
  limits : c'.Unlimited → c.Unlimited

/-- Runs with reloads: `c` is the current configuration, `u` says which ports the switch last reported up, `q` are the
packet-ins that may still be in flight.

As in `Run` the switch first connects; then events, packets, timeouts. `reload`: FAUCET takes a new configuration without
restarting the switch cold; `cold`: it takes one and restarts it cold, or the switch connects only later, so that nothing
has to be assumed of the configurations or of the state before. Not covered: packet-ins that are in flight during a reload,
from a port that leaves their VLAN (`late_packet_defect`); an added port that was up before, of which FAUCET was not told
(`added_port_dead_defect`). -/
inductive RunR : Cfg → Sys → (Nat → Bool) → (PacketIn → Prop) → Prop
  | start {c : Cfg} {sw0 : Switch} {now up lag ms ctl sh bar out} : c.WF → c.Basic → (∀ l, (sh l).Perm l) →
      c.react Ctl.init (.connect now up lag) = some (ms, ctl) → FlowReorder.reorder sh bar ms = some out →
      RunR c ⟨ctl, Switch.execAll sw0 out, fun _ => False⟩ (fun i => up.contains i) (fun _ => False)
  | event {c s u q ev ms ctl sh bar out} : RunR c s u q → (∀ l, (sh l).Perm l) → (∀ now k, ev = .packetIn now k → q k) →
      c.react s.ctl ev = some (ms, ctl) → FlowReorder.reorder sh bar ms = some out →
      RunR c ⟨ctl, s.sw.execAll out, s.seen⟩ (ev.upAfter u) q
  | packet {c s u q k es} : RunR c s u q → Wire k → Plain c k → Proc s.sw 0 k es →
      RunR c ⟨s.ctl, s.sw, fun x => s.seen x ∨ ∃ e ∈ es, e.port = portController ∧ x = Emit.toPacketIn e⟩ u
        (fun x => q x ∨ ∃ e ∈ es, e.port = portController ∧ x = Emit.toPacketIn e)
  | timeout {c s u q sl b} : RunR c s u q → s.sw.flows sl = some b → b.hard ≠ 0 ∨ b.idle ≠ 0 →
      RunR c ⟨s.ctl, ⟨fun x => if x = sl then none else s.sw.flows x, s.sw.groups, s.sw.meters⟩, s.seen⟩ u q
  | reload {c c' s u q sec ch lag ms ctl sh bar out} : RunR c s u q → Reloadable c c' sec → (changes c c' sec).Same ch →
      s.ctl.running = true →
      (∀ p ∈ c'.ports, (∀ p0 ∈ c.ports, p0.number ≠ p.number) → u p.number = true → s.ctl.known p.number = true) →
      reload c c' sec ch lag s.ctl = some (ms, ctl) → (∀ l, (sh l).Perm l) → FlowReorder.reorder sh bar ms = some out →
      RunR c' ⟨ctl, s.sw.execAll out, s.seen⟩ u (fun k => q k ∧ SeenOk c' k)
  | cold {c c' s u q now up lag ctl0 ms ctl sh bar out} : RunR c s u q → c'.WF → c'.Basic → (∀ l, (sh l).Perm l) →
      c'.react ctl0 (.connect now up lag) = some (ms, ctl) → FlowReorder.reorder sh bar ms = some out →
      RunR c' ⟨ctl, s.sw.execAll out, s.seen⟩ (fun i => up.contains i) (fun k => q k ∧ SeenOk c' k)

/-- The reload does not concern the port: its section, its mirrors and the sections of its VLANs are the same. -/
structure PortKept (c c' : Cfg) (sec : Sections) (p : LPort) : Prop where
  old : p ∈ c.ports
  new : p ∈ c'.ports
  section_ : sec.port p.number = true
  vlans : ∀ v ∈ c'.vlans, p.In v.vid → (∃ v0 ∈ c.vlans, v0.vid = v.vid) ∧ sec.vlan v.vid = true

/-- The reload does not concern the VLAN: both configurations have it, its section is the same, and the same ports are in it. -/
structure VlanKept (c c' : Cfg) (sec : Sections) (vid : Nat) : Prop where
  old : ∃ v ∈ c.vlans, v.vid = vid
  new : ∃ v ∈ c'.vlans, v.vid = vid
  same : ¬ Touched c c' sec vid

/-- FAUCET takes the new configuration without restarting the switch cold, and the switch does what it is told. -/
def Reloaded (c c' : Cfg) (sec : Sections) (s s' : Sys) : Prop :=
  ∃ (ch : Changes) (lag : Nat → Nat → LagChange) (ms : List OfMsg) (ctl : Ctl) (sh : List OfMsg → List OfMsg) (bar : Bool) (out : List OfMsg),
    allChanged c c' sec = false ∧ (changes c c' sec).Same ch ∧ reload c c' sec ch lag s.ctl = some (ms, ctl) ∧ (∀ l, (sh l).Perm l) ∧
    FlowReorder.reorder sh bar ms = some out ∧ s' = ⟨ctl, s.sw.execAll out, s.seen⟩

end Faucet.L2
