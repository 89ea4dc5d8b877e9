import Verif.Acl.Ports
import Verif.FlowReorder.Props

/-!
Cases that meet the hypotheses of the theorems about ACLs, and cases in which the code does not do what is expected.
-/

namespace Faucet.Acl
open Faucet.OF Faucet.FlowReorder

/-- Numbers stand for themselves, VIDs get the present bit. -/
def encEx : Enc := fun f v =>
  match v with
  | .int n => if f = fVlanVid then some (vidPresent n, none) else some (n, none)
  | .text _ => none

theorem encEx_ok : EncOk encEx := ⟨fun _ => rfl, fun _ => rfl⟩

/-- Table 0 for port ACLs, 1 VLAN, 2 for VLAN ACLs, 8 for egress ACLs. -/
def mgrEx : Mgr :=
  { portTable := some ⟨0, 7⟩, vlanTable := some ⟨2, 7⟩, egressTable := some ⟨8, 7⟩, toVlan := 1, toClass := 3, toL2 := 5, toEgress := 9 }

/-- Mirror a type of packets to port 4 and let them pass; send another type, tagged, to port 5 only; drop a third; pass. -/
def rMirror : Rule := { fields := [(.new fEthType, .int 0x800)], actions := some { mirror := some 4 } }
def rOut : Rule := { fields := [(.old fEthType, .int 0x806)],
                     actions := some { output := some (.dict { vlanVid := some ⟨100, none⟩, setFields := [(fEthDst, 9)], port := some 5 }) } }
def rWalk : Rule := { fields := [(.new fEthType, .int 0x86dd)],
                      actions := some { output := some (.ordered [.port 6, .vlanVid ⟨100, none⟩, .port 5]) } }
def rDrop : Rule := { fields := [(.new fEthSrc, .int 77)] }
def rAll : Rule := { actions := some { allow := some 1 } }
def aclsEx : List Acl := [⟨[rMirror, rOut], false⟩, ⟨[rWalk, rDrop, rAll], false⟩]

def portEx (n : Nat) : Port := { number := n, aclsIn := aclsEx }

theorem aclsEx_ok : AclsOk aclsEx := by
  refine ⟨?_, ?_, by decide, by decide⟩
  · intro r hr a o ha ho
    simp only [aclsEx, allRules, List.flatMap_cons, List.flatMap_nil, List.append_nil, List.mem_append, List.mem_cons, List.not_mem_nil, or_false] at hr
    rcases hr with (rfl | rfl) | (rfl | rfl | rfl) <;> simp [rMirror, rOut, rWalk, rDrop, rAll] at ha <;> subst ha <;> simp at ho <;> subst ho <;>
      simp [Output.failover]
  · intro r hr
    simp only [aclsEx, allRules, List.flatMap_cons, List.flatMap_nil, List.append_nil, List.mem_append, List.mem_cons, List.not_mem_nil, or_false] at hr
    rcases hr with (rfl | rfl) | (rfl | rfl | rfl) <;> unfold Unambiguous <;> decide

theorem portEx_ok (n : Nat) : PortOk (portEx n) := ⟨fun _ => aclsEx_ok, rfl⟩

def emptySw : Switch := ⟨fun _ => none, fun _ => none, fun _ => none⟩

/-- A packet from port `n` with the type and source. -/
def pktEx (n ty src : Nat) : Pkt := ⟨fun f => if f = fInPort then some n else if f = fEthType then some ty else if f = fEthSrc then some src else none, []⟩

/-- The hypotheses of `port_acl_decides`: a history in which port 1 comes up, port 2 comes up, port 1 goes down and comes up
again, port 2 changes its ACL. -/
example : ∃ sw cfg, PortRun encEx mgrEx (emptySw, fun _ => none) (sw, cfg) ∧ cfg 1 = some (portEx 1) ∧
    cfg 2 = some { number := 2 } := by
  obtain ⟨m1, h1⟩ : ∃ ms, addPort encEx mgrEx (portEx 1) = some ms := Option.isSome_iff_exists.1 (by decide)
  obtain ⟨m2, h2⟩ : ∃ ms, addPort encEx mgrEx (portEx 2) = some ms := Option.isSome_iff_exists.1 (by decide)
  obtain ⟨m3, h3⟩ : ∃ ms, coldStartPort encEx mgrEx { number := 2 } = some ms := Option.isSome_iff_exists.1 (by decide)
  refine ⟨_, _, (((((PortRun.refl.step (.up (portEx_ok 1) (Or.inl rfl) h1)).step (.up (portEx_ok 2) (Or.inl rfl) h2)).step
    (.down (p := portEx 1) rfl)).step (.up (portEx_ok 1) (Or.inl rfl) h1)).step
      (.acl (p := { number := 2 }) ⟨fun h => absurd rfl h, rfl⟩ rfl h3)), rfl, rfl⟩

/-- A packet whose first matching rule is the second, and one that meets only the last. -/
example : FirstMatch encEx (some 1) none (allRules aclsEx) rOut (pktEx 1 0x806 77) := by
  refine ⟨[rMirror], [rWalk, rDrop, rAll], rfl, ⟨?_, ?_, ?_⟩, ?_⟩
  · intro n h; injection h with h; subst h; rfl
  · intro v h; cases h
  · intro k v f hm hk _ _
    simp only [rOut, List.mem_singleton, Prod.mk.injEq] at hm
    obtain ⟨rfl, rfl⟩ := hm
    simp only [keyField] at hk
    rw [if_pos (by decide)] at hk
    injection hk with hk
    subst hk
    exact ⟨0x806, none, 0x806, rfl, rfl, rfl⟩
  · intro q hq hm
    simp only [List.mem_singleton] at hq
    subst hq
    obtain ⟨x, mask, w, e1, e2, e3⟩ := hm.fields (.new fEthType) (.int 0x800) fEthType (by decide) rfl (by decide) (by decide)
    simp only [encEx] at e1
    rw [if_neg (by decide)] at e1
    injection e1 with e1
    injection e1 with e1 e4
    subst e1 e4
    have : (pktEx 1 0x806 77).field fEthType = some 0x806 := rfl
    rw [this] at e2
    injection e2 with e2
    subst e2
    simp [maskEq] at e3

/-- The rules are of the kind the theorems are about, and do what one expects. -/
theorem rOut_direct : Direct { output := some (.dict { vlanVid := some ⟨100, none⟩, setFields := [(fEthDst, 9)], port := some 5 }) } := by
  refine ⟨?_, rfl, Or.inl rfl⟩
  intro o h
  injection h with h
  subst h
  refine ⟨⟨?_, ?_, ?_, ?_⟩, rfl, rfl⟩
  · intro v h; injection h with h; subst h; decide
  · intro v h; cases h
  · intro v h; cases h
  · intro f h
    simp only [List.mem_singleton] at h
    subst h
    decide

theorem rWalk_direct : Direct { output := some (.ordered [.port 6, .vlanVid ⟨100, none⟩, .port 5]) } := by
  refine ⟨?_, rfl, Or.inl rfl⟩
  intro o h
  injection h with h
  subst h
  intro e he
  simp only [List.mem_cons, List.not_mem_nil, or_false] at he
  rcases he with rfl | rfl | rfl <;> simp [ActOk]

example : (outEffect (some (.ordered [.port 6, .vlanVid ⟨100, none⟩, .port 5])) (pktEx 1 0x86dd 3)).1.map (fun e => (e.port, e.tags)) =
    [(6, []), (5, [(100, 0)])] := by decide

example : (outEffect (some (.dict { popVlans := some 1, vlanVids := some [⟨7, none⟩, ⟨8, none⟩], port := some 5, ports := some [6] }))
    ⟨fun _ => none, [(1, 3)]⟩).1.map (fun e => (e.port, e.tags)) = [(5, [(8, 0), (7, 0)]), (6, [(8, 0), (7, 0)])] := by decide

/-- A VLAN history for the theorems about VLANs. -/
def vlanEx (v : Nat) : Vlan := { vid := v, aclsIn := aclsEx, aclsOut := aclsEx }

example : ∃ sw cfg, VlanRun encEx mgrEx (emptySw, fun _ => none) (sw, cfg) ∧ cfg 100 = some (vlanEx 100) ∧
    cfg 200 = some { vid := 200 } ∧ cfg 300 = none := by
  obtain ⟨m1, h1⟩ : ∃ ms, addVlan encEx mgrEx (vlanEx 100) = some ms := Option.isSome_iff_exists.1 (by decide)
  obtain ⟨m2, h2⟩ : ∃ ms, addVlan encEx mgrEx (vlanEx 200) = some ms := Option.isSome_iff_exists.1 (by decide)
  obtain ⟨m3, h3⟩ : ∃ ms, addVlan encEx mgrEx { vid := 200 } = some ms := Option.isSome_iff_exists.1 (by decide)
  have hok : ∀ v, v < 4096 → VlanOk (vlanEx v) := fun v hv => ⟨hv, fun _ => aclsEx_ok, fun _ => aclsEx_ok⟩
  refine ⟨_, _, ((((VlanRun.refl.step (.add (hok 100 (by decide)) (Or.inl rfl) h1)).step
    (.add (hok 200 (by decide)) (Or.inl rfl) h2)).step
    (.replace (v := { vid := 200 }) ⟨(by decide : 200 < 4096), fun h => absurd rfl h, fun h => absurd rfl h⟩ h3)).step
    (.del (v := vlanEx 300) (by decide))), rfl, rfl, rfl⟩

/-- `dp_acl_decides`. -/
example : ∃ ms, initTables encEx { mgrEx with dpAcls := aclsEx } = some ms := Option.isSome_iff_exists.1 (by decide)

/-! ## Where the code falls short -/

/-- C15 is false if a rule gives the VLAN by both of its names: applied to VLAN 100, this rule matches packets of VLAN 7. -/
theorem vlan_escape_defect : ∃ (r : Rule) (items : List MatchItem), r.fields.keys.Nodup ∧
    ruleMatch encEx (vlanCtx mgrEx ⟨2, 7⟩ { vid := 100 }) r = some items ∧ hitsAll items ⟨fun _ => none, [(7, 0)]⟩ = true :=
  ⟨{ fields := [(.new fVlanVid, .int 5), (.old fVlanVid, .int 7)] }, [⟨fVlanVid, vidPresent 7, none⟩], by decide, by decide, by decide⟩

/-- With `exact_match` rules all have one priority: of two rules with the same match the last wins. -/
theorem exact_match_last_wins_defect :
    ∃ ms, addPort encEx mgrEx { number := 1, aclsIn := [⟨[rAll, { actions := none }], true⟩] } = some ms ∧
      ((emptySw.execAll (deletesFirst ms)).flows ⟨0, aclPriority, [inPortItem 1]⟩).map (·.inst) = some [] :=
  ⟨_, rfl, by decide⟩

/-- An ACL with a failover group on two ports: when the second port comes up, the group is deleted and made again, which
deletes the rule of the first port. -/
theorem failover_group_shared_defect :
    let a : List Acl := [⟨[{ actions := some { output := some (.dict { failover := some (1, [2, 3]) }) } }], false⟩]
    ∃ m1 m2, addPort encEx mgrEx { number := 1, aclsIn := a } = some m1 ∧ addPort encEx mgrEx { number := 4, aclsIn := a } = some m2 ∧
      ((emptySw.execAll (deletesFirst m1)).flows ⟨0, aclPriority, [inPortItem 1]⟩).isSome = true ∧
      ((emptySw.execAll (deletesFirst m1)).execAll (deletesFirst m2)).flows ⟨0, aclPriority, [inPortItem 1]⟩ = none :=
  ⟨_, _, rfl, rfl, by decide, by decide⟩

/-- Connection tracking is silently left out of a rule that outputs to a port and does not allow. -/
theorem ct_dropped_defect :
    (ruleInst (portCtx mgrEx ⟨0, 7⟩ { number := 1 })
      { actions := some { ct := some 5, output := some (.dict { port := some 2 }) } }).map (·.1) = some [.apply [.output 2]] := by
  decide

/-- The group messages of a tunnel's output are lost in the dictionary form: the rule uses a group that is never made. -/
theorem tunnel_messages_lost_defect :
    (ruleInst { (portCtx mgrEx ⟨0, 7⟩ { number := 1 }) with tunnels := some [(9, .dict { failover := some (1, [2]) })] }
      { actions := some { output := some (.dict { tunnel := some 9 }) } }) = some ([.apply [.group 1]], []) := by
  decide

/-- Removing the ACLs of a port that is up: the deletion of the port's flows has the same match, priority, table and cookie
as the flow that lets everything pass, so the ordering of the messages leaves it out, and the rules of the old ACL stay. -/
theorem acl_removal_defect :
    let old : Port := { number := 1, aclsIn := [⟨[rDrop, rAll], false⟩] }
    let new : Port := { number := 1 }
    ∃ m1 m2 out, addPort encEx mgrEx old = some m1 ∧ coldStartPort encEx mgrEx new = some m2 ∧ reorder id false m2 = some out ∧
      (((emptySw.execAll (deletesFirst m1)).execAll out).flows ⟨0, aclPriority, [inPortItem 1, ⟨fEthSrc, 77, none⟩]⟩).map (·.inst) = some [] :=
  ⟨_, _, _, rfl, rfl, rfl, by decide⟩

end Faucet.Acl
