import Verif.Pipeline.Sent

/-!
# Examples and findings about the pipeline
-/

namespace Faucet.Pipeline.Ex
open Faucet.OF Faucet.Pipeline

/-- Port ACLs, VLAN ACLs, IPv4 routing, hairpinning and egress ACLs. -/
def c0 : Conf := { portAcls := true, vlanAcls := true, egressAcls := true, ipv4 := true, hairpin := true }

example : (tables c0).map (fun t => (t.name, t.id)) =
    [(.portAcl, 0), (.vlan, 1), (.vlanAcl, 2), (.ethSrc, 3), (.ipv4Fib, 4), (.vip, 5), (.hairpin, 6), (.ethDst, 7),
      (.egressAcl, 8), (.egress, 9), (.flood, 10)] := by decide

/-- The least: four tables. -/
example : (tables {}).map (fun t => (t.name, t.id, t.miss, t.next)) =
    [(.vlan, 0, none, [.ethSrc]), (.ethSrc, 1, some .ethDst, [.ethDst, .flood]), (.ethDst, 2, some .flood, []),
      (.flood, 3, none, [])] := by decide

/-- `id_lt`, `id_unique`: tables that exist. -/
example : ((table c0 .vlanAcl).map (·.id), (table c0 .egress).map (·.id)) = (some 2, some 9) := by decide

/-- `first_table`. -/
example : (tables c0).head?.map (fun t => (t.name, t.id)) = some (.portAcl, 0) := by decide
example : (tables {}).head?.map (fun t => (t.name, t.id)) = some (.vlan, 0) := by decide

/-- `site_forward`: the rule of a port on a VLAN with an ACL; known hosts with egress ACLs. -/
example : Site c0 .vlan (some (.goto 2)) := Site.portVlanAcl (c := c0) rfl
example : Site c0 .ethDst (some (.goto 8)) := Site.known (c := c0) rfl

/-- A switch with the default rules and a VLAN 10 on port 1 of the least pipeline. -/
def ms0 : List OfMsg :=
  (tables {}).filterMap (defaultFlow {}) ++ (portVlanFlow {} { vid := 10, port := 1, push := true }).toList ++
  (unknownFlow {} 10).toList

/-- `processing_terminates`: its hypothesis is met. -/
example : (∀ m ∈ ms0, Sent {} m) ∧ ms0.length = 6 := by
  refine ⟨?_, by decide⟩
  intro m hm
  simp only [ms0, List.mem_append] at hm
  rcases hm with (hm | hm) | hm
  · obtain ⟨t, ht, e⟩ := List.mem_filterMap.1 hm
    exact .defaults ht e
  · exact .portVlan (v := { vid := 10, port := 1, push := true }) (by simp) (Option.mem_toList.1 hm)
  · exact .unknown (Option.mem_toList.1 hm)

/-- A packet goes through three tables and to the fourth. -/
def pkt0 : Pkt := { hdr := fun f => if f = fInPort then some 1 else none, tags := [] }

def slotVlan : Slot := ⟨0, lowPriority, [⟨fInPort, 1, none⟩, ⟨fVlanVid, 0, none⟩]⟩

example : ((emptySwitch.execAll ms0).flows slotVlan).map (fun b => instGoto b.inst) = some (some 1) ∧
    hitsAll slotVlan.items pkt0 = true := by decide

/-- A learning manager wired to the least pipeline. -/
def l0 : Learn.Cfg where
  port := fun n => { number := n }
  portVlans := fun _ => []
  loopProtectExternal := fun _ => false
  untagged := fun _ _ => false
  mirror := fun _ => []
  vlanMax := fun _ => 0
  learnTimeout := 300
  learnJitter := 10
  guard := 5
  learnBan := 10
  idleDst := false
  hasExternals := false
  flowRemoved := false
  macHash := fun n => (n : Int)
  ethSrc := ⟨1, 0⟩
  ethDst := ⟨2, 0⟩
  hairpin := none
  classification := ⟨1, 0⟩
  egress := none

example : LearnWired {} l0 := ⟨by decide, by decide, by decide, by decide⟩

/-- An ACL manager wired to `c0`. -/
def m0 : Acl.Mgr where
  portTable := some ⟨0, 0⟩
  vlanTable := some ⟨2, 0⟩
  egressTable := some ⟨8, 0⟩
  toVlan := 1
  toClass := 3
  toL2 := 6
  toEgress := 9

example : AclWired c0 m0 := ⟨by decide, by decide, by decide, by decide, by decide, by decide, by decide⟩

/-! ## Findings -/

/-- **Shared table id.** With static ids (NoviFlow) a datapath with a coprocessor port and a VLAN ACL has two tables with the
same id, so rules of both end in one table of the switch. -/
theorem static_id_collision_defect : ∃ s d,
    table { static := true, copro := true, vlanAcls := true } .copro = some s ∧
    table { static := true, copro := true, vlanAcls := true } .vlanAcl = some d ∧ s.id = d.id :=
  ⟨{ name := .copro, id := 2, miss := some .ethDst, next := [.ethDst] },
    { name := .vlanAcl, id := 2, next := [.ethSrc, .ethDst, .flood] }, by decide, by decide, rfl⟩

/-- **Unannounced next table.** With hairpinning and an egress pipeline the rules of the hairpin table go to a table that was
not announced for it: a switch that takes table features at their word refuses them. -/
theorem hairpin_unannounced_defect : Site c0 .hairpin (some (.goto 8)) ∧ ¬ Announced c0 .hairpin (some (.goto 8)) := by
  refine ⟨Site.hairpin (c := c0) rfl rfl, ?_⟩
  rintro ⟨d, hd, e, s, hs, es, h⟩
  have : ∀ d ∈ tables c0, some (Inst.goto 8) = some (.goto d.id) → ∀ s ∈ tables c0, s.name = .hairpin →
      ¬ (d.name ∈ s.next ∨ s.miss = some d.name) := by decide
  exact this d hd e s hs es h

end Faucet.Pipeline.Ex
