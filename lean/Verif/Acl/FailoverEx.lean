import Verif.Acl.Failover
import Verif.Acl.Examples
import Verif.Flood.Model

/-! Failover in ACLs: a case that meets the hypotheses, and one in which the code does not do what is expected. -/

namespace Faucet.Acl.FEx

open Faucet.OF Faucet.FlowReorder

/-- ARP goes, tagged, to port 2 or else to port 3; IPv4 goes to port 5 and, in list form, to the same failover and on to table 5. -/
def rArp : Rule := { fields := [(.new fEthType, .int 0x806)],
                     actions := some { output := some (.dict { vlanVid := some ⟨100, none⟩, failover := some (1, [2, 3]) }) } }
def rIp : Rule := { fields := [(.new fEthType, .int 0x800)],
                    actions := some { output := some (.ordered [.port 5, .failover 1 [2, 3], .goto 5]) } }
def mgr : Mgr := { mgrEx with dpAcls := [⟨[rArp, rIp], false⟩] }

theorem uses {r : Rule} (hr : r ∈ allRules mgr.dpAcls) {g : Nat} {ns : List Nat} (h : r.Uses g ns) : g = 1 ∧ ns = [2, 3] := by
  obtain ⟨a, o, h1, h2, h3⟩ := h
  rcases List.mem_cons.1 hr with rfl | hr
  · cases h1
    cases h2
    cases h3
    exact ⟨rfl, rfl⟩
  · cases List.mem_singleton.1 hr
    cases h1
    cases h2
    rcases List.mem_cons.1 h3 with h | h
    · cases h
    · rcases List.mem_cons.1 h with h | h
      · cases h
        exact ⟨rfl, rfl⟩
      · cases List.mem_singleton.1 h

example : (allRules mgr.dpAcls).length ≤ aclPriority ∧ (∀ r ∈ allRules mgr.dpAcls, Unambiguous r) ∧
    (∀ r ∈ allRules mgr.dpAcls, ∀ r' ∈ allRules mgr.dpAcls, ∀ g ns ns', r.Uses g ns → r'.Uses g ns' → ns = ns') ∧
    ∃ ms, initTables encEx mgr = some ms := by
  refine ⟨by decide, fun r hr => ?_, fun r hr r' hr' g ns ns' h h' => ?_, _, rfl⟩
  · rcases List.mem_cons.1 hr with rfl | hr
    · unfold Unambiguous; decide
    · cases List.mem_singleton.1 hr
      unfold Unambiguous; decide
  rw [(uses hr h).2, (uses hr' h').2]

example : DirectL (rArp.actions.getD {}) ∧ DirectL (rIp.actions.getD {}) := by
  refine ⟨⟨fun o h => ?_, rfl, Or.inl rfl⟩, ⟨fun o h => ?_, rfl, Or.inr ⟨⟨5, rfl⟩, ?_⟩⟩⟩
  · cases h
    refine ⟨⟨?_, ?_, ?_, ?_⟩, rfl⟩
    · intro v hv
      cases hv
      decide
    · intro v hv
      cases hv
    · intro v hv
      exact absurd hv List.not_mem_nil
    · intro f hf
      exact absurd hf List.not_mem_nil
  · cases h
    intro e he
    rcases List.mem_cons.1 he with rfl | he
    · exact Or.inl trivial
    · rcases List.mem_cons.1 he with rfl | he
      · exact Or.inr ⟨1, [2, 3], rfl⟩
      · cases List.mem_singleton.1 he
        exact Or.inl trivial
  · rintro (h | ⟨_, h⟩)
    · cases h
    · exact h rfl

/-- What the rules say: with the link of port 2 down, ARP goes to port 3; with both down it is dropped. -/
example (p : Pkt) : (outEffectL (fun n => n == 3) (rArp.actions.getD {}).output p).1 = emitPort { p with tags := pushTag p.tags ⟨100, none⟩ } 3 ∧
    (outEffectL (fun _ => false) (rArp.actions.getD {}).output p).1 = [] := by
  constructor
  · simp [outEffectL, rArp, outPorts, rewritten, newTags, toFirst]
  · simp [outEffectL, rArp, outPorts, toFirst]

/-- A failover whose group ID is the number of a VLAN is taken by the VLAN's flood group. With `group_table`, FAUCET floods a VLAN
through the group that has the VLAN's number, and nothing keeps a failover from using the same ID. When a switch connects, VLANs are set
up before ports, and the group that is made first stays: here packets from port 1 that should go to port 2, or else to port 3, are
flooded to all ports of VLAN 100, also to port 4, which the ACL does not name. -/
theorem failover_group_is_vlan_group_defect :
    let v : Flood.FVlan := { vid := 100, untagged := [{ number := 1 }, { number := 2 }, { number := 3 }, { number := 4 }] }
    let a : List Acl := [⟨[{ actions := some { output := some (.dict { failover := some (100, [2, 3]) }) } }], false⟩]
    ∃ ms, addPort encEx mgrEx { number := 1, aclsIn := a } = some ms ∧
      ∃ sw, sw = emptySw.execAll (deletesFirst (Flood.groupRules { table := ⟨9, 5⟩, useGroups := true } .add v ++ ms)) ∧
      ((sw.flows ⟨0, aclPriority, [inPortItem 1]⟩).map (·.inst)) = some [.apply [.group 100]] ∧
      ((runInst sw [.apply [.group 100]] (pktEx 1 0x806 7)).1.map (·.port)) = [2, 3, 4] :=
  ⟨_, rfl, _, rfl, by decide, by decide⟩

end Faucet.Acl.FEx
