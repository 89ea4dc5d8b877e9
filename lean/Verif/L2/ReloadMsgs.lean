import Verif.L2.ReloadDiff
import Verif.FlowReorder.Batch

/-! # One standalone switch: the messages of a reload -/

namespace Faucet.L2
open Faucet.OF
open Faucet.Learn (iInPort iEthDst iEthSrc iVlan host CInv)

variable {c c' : Cfg} {sec : Sections} {ch : Changes}

/-! ## Form -/

/-- A message about a flow in a table of its own. -/
def Std (m : OfMsg) : Prop := ∃ f, m = .flow f ∧ f.mtch.obj = 0 ∧ f.cookie = 0 ∧ f.table ≠ tableAll

theorem std_add {t : Table} (hc : t.cookie = 0) (ht : t.id ≠ tableAll) {items : List MatchItem} {prio : Nat} {inst : List Inst} {h i : Nat} :
    Std (t.flowadd items prio inst h i) := ⟨_, rfl, rfl, hc, ht⟩

theorem std_drop {t : Table} (hc : t.cookie = 0) (ht : t.id ≠ tableAll) {items : List MatchItem} {prio h : Nat} :
    Std (t.flowdrop items prio h) := ⟨_, rfl, rfl, hc, ht⟩

theorem std_del {t : Table} (hc : t.cookie = 0) (ht : t.id ≠ tableAll) {items : List MatchItem} {prio : Nat} {o : Option Nat} {s : Bool} :
    Std (t.flowdel items prio o s) := ⟨_, rfl, rfl, hc, ht⟩

theorem vlan_not_all (c : Cfg) : (c.table .vlan).id ≠ tableAll := by rw [vlan_table]; decide

theorem std_floodRules (hb : c.Basic) (d : Nat → Dyn) (v : LVlan) (cold md : Bool) {m : OfMsg}
    (hm : m ∈ Flood.floodRules c.flood (c.fvlan d v) cold md) : Std m := by
  obtain ⟨-, -, -, -, -, -, -, -, -, -, -, -, -, hfA, -⟩ := hb.distinct
  have hg : c.flood.useGroups = false := hb.noGroups
  unfold Flood.floodRules at hm
  simp only [hg, Bool.false_eq_true, if_false, List.append_nil] at hm
  unfold Flood.multioutRules at hm
  obtain ⟨r, -, hm⟩ := List.mem_flatMap.1 hm
  unfold Flood.maskRules at hm
  split at hm
  · obtain ⟨p, -, hm⟩ := List.mem_flatMap.1 hm
    unfold Flood.combinatorialRule at hm
    simp only at hm
    split at hm
    · cases hm
    · rw [List.mem_singleton.1 hm]; exact ⟨_, rfl, rfl, rfl, hfA⟩
  · simp only [hg, Bool.false_eq_true, if_false] at hm
    rcases List.mem_append.1 hm with hm | hm
    · rw [List.mem_singleton.1 hm]; exact ⟨_, rfl, rfl, rfl, hfA⟩
    · obtain ⟨p, -, hm⟩ := List.mem_flatMap.1 hm
      unfold Flood.besideVlan at hm
      simp only at hm
      split at hm
      · cases hm
      · split at hm
        · split at hm
          · cases hm
          · rw [List.mem_singleton.1 hm]; exact std_del rfl hfA
        · rw [List.mem_singleton.1 hm]; exact ⟨_, rfl, rfl, rfl, hfA⟩

theorem std_addVlan (hb : c.Basic) (d : Nat → Dyn) (cold : Bool) (v : LVlan) {m : OfMsg} (hm : m ∈ c.addVlan d cold v) : Std m := by
  obtain ⟨-, -, -, -, -, -, -, -, -, -, -, hsA, hdA, hfA, hcA⟩ := hb.distinct
  unfold Cfg.addVlan at hm
  simp only [List.mem_append] at hm
  rcases hm with (hm | hm) | hm
  · split at hm
    · rw [List.mem_singleton.1 hm]; exact std_drop rfl hcA
    · cases hm
  · have hm := Option.mem_toList.1 hm
    unfold Pipeline.unknownFlow at hm
    obtain ⟨i, -, rfl⟩ := Option.map_eq_some_iff.1 hm
    exact std_add rfl hsA
  · exact std_floodRules hb d v cold false hm

theorem std_portDel (hb : c.Basic) {p : LPort} (hp : p ∈ c.ports) {m : OfMsg} (hm : m ∈ c.portDel p) : Std m := by
  obtain ⟨-, -, -, -, -, -, -, -, -, -, -, hsA, hdA, hfA, hcA⟩ := hb.distinct
  unfold Cfg.portDel at hm
  simp only [List.mem_append] at hm
  rcases hm with ((hm | hm) | hm) | hm
  · unfold Cfg.egressDel at hm
    rw [hb.noEgress] at hm
    simp at hm
  · unfold Cfg.switchDel at hm
    split at hm
    · cases hm
    · simp only [hb.lacp p hp, ne_eq, not_true_eq_false, if_false, List.append_nil, List.mem_append] at hm
      rcases hm with (hm | hm) | hm
      · unfold Learn.delHostFlows at hm
        simp only [hb.learnHairpin, List.append_nil, List.mem_cons, List.not_mem_nil, or_false] at hm
        rcases hm with rfl | rfl
        · exact std_del rfl hsA
        · exact std_del rfl hdA
      · split at hm
        · rw [List.mem_singleton.1 hm]; exact std_del rfl (vlan_not_all c)
        · cases hm
      · obtain ⟨vid, -, rfl⟩ := List.mem_map.1 hm
        exact std_del rfl (vlan_not_all c)
  · unfold Cfg.lldpDel at hm
    split at hm
    · rw [List.mem_singleton.1 hm]; exact std_del rfl (vlan_not_all c)
    · cases hm
  · unfold Cfg.outOnlyDel at hm
    split at hm
    · rw [List.mem_singleton.1 hm]; exact std_del rfl (vlan_not_all c)
    · cases hm

theorem std_vlanRule (p : LPort) (push : Bool) (vid : Nat) {m : OfMsg} (hm : m ∈ c.vlanRule p push vid) : Std m := by
  have hm := Option.mem_toList.1 hm
  unfold Pipeline.portVlanFlow at hm
  obtain ⟨i, -, rfl⟩ := Option.map_eq_some_iff.1 hm
  exact std_add rfl (vlan_not_all c)

theorem std_portAdd (hb : c.Basic) {p : LPort} (hp : p ∈ c.ports) {m : OfMsg} (hm : m ∈ c.portAdd p) : Std m := by
  unfold Cfg.portAdd at hm
  simp only [List.mem_append] at hm
  rcases hm with ((hm | hm) | hm) | hm
  · unfold Cfg.egressAdd at hm
    rw [hb.noEgress] at hm
    simp at hm
  · unfold Cfg.switchAdd at hm
    split at hm
    · cases hm
    · simp only [hb.lacp p hp, ne_eq, not_true_eq_false, if_false, List.append_nil] at hm
      rcases List.mem_append.1 hm with hm | hm
      · obtain ⟨vid, hv, hm⟩ := List.mem_flatMap.1 hm
        exact std_vlanRule _ _ _ hm
      · unfold Cfg.untaggedRule at hm
        split at hm
        · exact std_vlanRule _ _ _ hm
        · split at hm
          · rw [List.mem_singleton.1 hm]; exact std_drop rfl (vlan_not_all c)
          · cases hm
  · unfold Cfg.lldpAdd at hm
    split at hm
    · rw [List.mem_singleton.1 hm]; exact std_add rfl (vlan_not_all c)
    · cases hm
  · unfold Cfg.outOnlyAdd at hm
    split at hm
    · rw [List.mem_singleton.1 hm]; exact std_drop rfl (vlan_not_all c)
    · cases hm

theorem std_delVlan (hb : c.Basic) (v : LVlan) {m : OfMsg} (hm : m ∈ c.delVlan v) : Std m := by
  obtain ⟨-, -, -, -, -, -, -, -, -, -, -, hsA, hdA, hfA, hcA⟩ := hb.distinct
  unfold Cfg.delVlan at hm
  simp only [List.mem_cons, List.not_mem_nil, or_false] at hm
  rcases hm with rfl | rfl
  · exact std_del rfl hfA
  · exact std_del rfl hsA

/-! ## Which messages -/

theorem mem_portsOf {ns : List Nat} {p : LPort} (h : p ∈ c.portsOf ns) : p ∈ c.ports ∧ p.number ∈ ns := by
  obtain ⟨n, hn, h⟩ := List.mem_filterMap.1 h
  obtain ⟨h1, h2⟩ := find_some h
  exact ⟨h1, h2 ▸ hn⟩

theorem portsOf_mem (hw : c.WF) {ns : List Nat} {p : LPort} (hp : p ∈ c.ports) (hn : p.number ∈ ns) : p ∈ c.portsOf ns :=
  List.mem_filterMap.2 ⟨p.number, hn, find_of_mem hw hp⟩

/-- What a message of the old configuration is. -/
inductive OldMsg (c : Cfg) (ch : Changes) (m : OfMsg) : Prop
  | port {p} : p ∈ c.ports → p.number ∈ ch.delP ∨ p.number ∈ ch.chP → m ∈ c.portDel p → OldMsg c ch m
  | update {d v} : v ∈ c.vlans → m ∈ c.updateVlan d v → OldMsg c ch m
  | vlan {v} : v ∈ c.vlans → v.vid ∈ ch.delV → m ∈ c.delVlan v → OldMsg c ch m

/-- What a message of the new configuration is. -/
inductive NewMsg (c : Cfg) (ch : Changes) (m : OfMsg) : Prop
  | port {p} : p ∈ c.ports → m ∈ c.portAdd p → NewMsg c ch m
  | add {d cold v} : v ∈ c.vlans → m ∈ c.addVlan d cold v → NewMsg c ch m
  | vlan {v} : v ∈ c.vlans → v.vid ∈ ch.chV → m ∈ c.delVlan v → NewMsg c ch m

theorem deleteMsgs_mem (hb : c.Basic) {d : Nat → Dyn} {ns : List Nat} {lag : Nat → LagChange} {m : OfMsg} (hm : m ∈ c.deleteMsgs d ns lag) :
    (∃ p ∈ c.ports, p.number ∈ ns ∧ m ∈ c.portDel p) ∨ ∃ v ∈ c.vlans, m ∈ c.updateVlan d v := by
  unfold Cfg.deleteMsgs at hm
  rcases List.mem_append.1 hm with hm | hm
  · obtain ⟨p, hp, hm⟩ := List.mem_flatMap.1 hm
    obtain ⟨h1, h2⟩ := mem_portsOf hp
    rw [if_neg (by simp [hb.lacp p h1])] at hm
    exact Or.inl ⟨p, h1, h2, hm⟩
  · obtain ⟨v, hv, hm⟩ := List.mem_flatMap.1 hm
    obtain ⟨p, hp, hv⟩ := List.mem_flatMap.1 hv
    exact Or.inr ⟨v, mem_vlansOf hv, hm⟩

theorem deleteMsgs_port (hw : c.WF) (hb : c.Basic) {d : Nat → Dyn} {ns : List Nat} {lag : Nat → LagChange} {p : LPort} (hp : p ∈ c.ports)
    (hn : p.number ∈ ns) {m : OfMsg} (hm : m ∈ c.portDel p) : m ∈ c.deleteMsgs d ns lag := by
  unfold Cfg.deleteMsgs
  refine List.mem_append_left _ (List.mem_flatMap.2 ⟨p, portsOf_mem hw hp hn, ?_⟩)
  rw [if_neg (by simp [hb.lacp p hp])]; exact hm

theorem addMsgs_mem (hb : c.Basic) {d : Nat → Dyn} {ns : List Nat} {lag : Nat → LagChange} {m : OfMsg} (hm : m ∈ c.addMsgs d ns lag) :
    (∃ p ∈ c.ports, m ∈ c.portAdd p) ∨ ∃ v ∈ c.vlans, m ∈ c.addVlan d false v := by
  unfold Cfg.addMsgs at hm
  rcases List.mem_append.1 hm with hm | hm
  · obtain ⟨p, hp, hm⟩ := List.mem_flatMap.1 hm
    obtain ⟨h1, -⟩ := mem_portsOf (List.mem_filter.1 hp).1
    rw [change_none hb h1] at hm
    simp only [Cfg.changeMsgs, List.append_nil] at hm
    exact Or.inl ⟨p, h1, hm⟩
  · obtain ⟨v, hv, hm⟩ := List.mem_flatMap.1 hm
    obtain ⟨p, hp, hv⟩ := List.mem_flatMap.1 hv
    exact Or.inr ⟨v, mem_vlansOf hv, hm⟩

theorem addMsgs_port (hw : c.WF) {d : Nat → Dyn} {ns : List Nat} {lag : Nat → LagChange} {p : LPort} (hp : p ∈ c.ports)
    (hn : p.number ∈ ns) (he : p.enabled = true) {m : OfMsg} (hm : m ∈ c.portAdd p) : m ∈ c.addMsgs d ns lag := by
  unfold Cfg.addMsgs
  exact List.mem_append_left _ (List.mem_flatMap.2 ⟨p, List.mem_filter.2 ⟨portsOf_mem hw hp hn, he⟩, List.mem_append_left _ hm⟩)

theorem addMsgs_vlan (hw : c.WF) {d : Nat → Dyn} {ns : List Nat} {lag : Nat → LagChange} {p : LPort} (hp : p ∈ c.ports)
    (hn : p.number ∈ ns) (he : p.enabled = true) {v : LVlan} (hv : v ∈ c.vlans) (hin : p.In v.vid) {m : OfMsg} (hm : m ∈ c.addVlan d false v) :
    m ∈ c.addMsgs d ns lag := by
  unfold Cfg.addMsgs
  refine List.mem_append_right _ (List.mem_flatMap.2 ⟨v, List.mem_flatMap.2 ⟨p, List.mem_filter.2 ⟨portsOf_mem hw hp hn, he⟩, ?_⟩, hm⟩)
  exact vlansOf_mem hw hv hin

variable {lag : Nat → Nat → LagChange} {w : Warm} {known : Nat → Bool}

theorem oldMsgs_mem (hb : c.Basic) {m : OfMsg} (hm : m ∈ oldMsgs c ch lag w) : OldMsg c ch m := by
  unfold oldMsgs at hm
  simp only [List.mem_append] at hm
  rcases hm with (hm | hm) | hm
  · rcases deleteMsgs_mem hb hm with ⟨p, h1, h2, h3⟩ | ⟨v, h1, h2⟩
    · exact .port h1 (Or.inl h2) h3
    · exact .update h1 h2
  · rcases deleteMsgs_mem hb hm with ⟨p, h1, h2, h3⟩ | ⟨v, h1, h2⟩
    · exact .port h1 (Or.inr h2) h3
    · exact .update h1 h2
  · obtain ⟨v, hv, hm⟩ := List.mem_flatMap.1 hm
    obtain ⟨x, hx, hv⟩ := List.mem_filterMap.1 hv
    obtain ⟨h1, h2⟩ := vlan_some hv
    exact .vlan h1 (h2 ▸ hx) hm

theorem oldMsgs_port (hw : c.WF) (hb : c.Basic) {p : LPort} (hp : p ∈ c.ports) (hn : p.number ∈ ch.delP ∨ p.number ∈ ch.chP) {m : OfMsg}
    (hm : m ∈ c.portDel p) : m ∈ oldMsgs c ch lag w := by
  unfold oldMsgs
  simp only [List.mem_append]
  rcases hn with hn | hn
  · exact Or.inl (Or.inl (deleteMsgs_port hw hb hp hn hm))
  · exact Or.inl (Or.inr (deleteMsgs_port hw hb hp hn hm))

theorem oldMsgs_vlan (hw : c.WF) {v : LVlan} (hv : v ∈ c.vlans) (hn : v.vid ∈ ch.delV) {m : OfMsg}
    (hm : m ∈ c.delVlan v) : m ∈ oldMsgs c ch lag w := by
  unfold oldMsgs
  exact List.mem_append_right _ (List.mem_flatMap.2 ⟨v, List.mem_filterMap.2 ⟨v.vid, hn, vlan_of_mem hw hv⟩, hm⟩)

theorem newMsgs_mem (hb : c.Basic) {m : OfMsg} (hm : m ∈ newMsgs c ch known lag w) : NewMsg c ch m := by
  unfold newMsgs at hm
  simp only [List.mem_append] at hm
  rcases hm with ((hm | hm) | hm) | hm
  · rcases addMsgs_mem hb hm with ⟨p, h1, h2⟩ | ⟨v, h1, h2⟩
    · exact .port h1 h2
    · exact .add h1 h2
  · rcases addMsgs_mem hb hm with ⟨p, h1, h2⟩ | ⟨v, h1, h2⟩
    · exact .port h1 h2
    · exact .add h1 h2
  · obtain ⟨v, hv, hm⟩ := List.mem_flatMap.1 hm
    obtain ⟨x, hx, hv⟩ := List.mem_filterMap.1 hv
    obtain ⟨h1, h2⟩ := vlan_some hv
    exact .vlan h1 (h2 ▸ hx) hm
  · obtain ⟨v, hv, hm⟩ := List.mem_flatMap.1 hm
    obtain ⟨x, hx, hv⟩ := List.mem_filterMap.1 hv
    exact .add (vlan_some hv).1 hm

theorem newMsgs_vlan (hw : c.WF) {v : LVlan} (hv : v ∈ c.vlans) (hn : v.vid ∈ ch.chV) {m : OfMsg}
    (hm : m ∈ c.delVlan v ∨ m ∈ c.addVlan w.dEnd true v) : m ∈ newMsgs c ch known lag w := by
  unfold newMsgs
  simp only [List.mem_append]
  have hx : v ∈ ch.chV.filterMap c.vlan := List.mem_filterMap.2 ⟨v.vid, hn, vlan_of_mem hw hv⟩
  rcases hm with hm | hm
  · exact Or.inl (Or.inr (List.mem_flatMap.2 ⟨v, hx, hm⟩))
  · exact Or.inr (List.mem_flatMap.2 ⟨v, hx, hm⟩)

theorem newMsgs_port (hw : c.WF) {p : LPort} (hp : p ∈ c.ports) (he : p.enabled = true)
    (hn : (p.number ∈ ch.addP ∨ p.number ∈ ch.chP) ∧ known p.number = true) :
    (∀ m ∈ c.portAdd p, m ∈ newMsgs c ch known lag w) ∧
    ∀ v ∈ c.vlans, p.In v.vid → (p.number ∈ ch.addP ∧ ∀ m ∈ c.addVlan w.dAdd false v, m ∈ newMsgs c ch known lag w) ∨
      (p.number ∈ ch.chP ∧ ∀ m ∈ c.addVlan w.dEnd false v, m ∈ newMsgs c ch known lag w) := by
  obtain ⟨hn | hn, hk⟩ := hn
  · have hmem : p.number ∈ ch.addP.filter known := List.mem_filter.2 ⟨hn, hk⟩
    refine ⟨fun m hm => ?_, fun v hv hin => Or.inl ⟨hn, fun m hm => ?_⟩⟩
    · unfold newMsgs
      simp only [List.mem_append]
      exact Or.inl (Or.inl (Or.inl (addMsgs_port hw hp hmem he hm)))
    · unfold newMsgs
      simp only [List.mem_append]
      exact Or.inl (Or.inl (Or.inl (addMsgs_vlan hw hp hmem he hv hin hm)))
  · have hmem : p.number ∈ ch.chP.filter known := List.mem_filter.2 ⟨hn, hk⟩
    refine ⟨fun m hm => ?_, fun v hv hin => Or.inr ⟨hn, fun m hm => ?_⟩⟩
    · unfold newMsgs
      simp only [List.mem_append]
      exact Or.inl (Or.inl (Or.inr (addMsgs_port hw hp hmem he hm)))
    · unfold newMsgs
      simp only [List.mem_append]
      exact Or.inl (Or.inl (Or.inr (addMsgs_vlan hw hp hmem he hv hin hm)))

/-! ## What they do -/

theorem OldMsg.std (hb : c.Basic) {m : OfMsg} (h : OldMsg c ch m) : Std m := by
  cases h with
  | port h1 _ h2 => exact std_portDel hb h1 h2
  | update _ h => exact std_floodRules hb _ _ _ _ h
  | vlan _ _ h => exact std_delVlan hb _ h

theorem NewMsg.std (hb : c.Basic) {m : OfMsg} (h : NewMsg c ch m) : Std m := by
  cases h with
  | port h1 h2 => exact std_portAdd hb h1 h2
  | add _ h => exact std_addVlan hb _ _ _ h
  | vlan _ _ h => exact std_delVlan hb _ h

theorem delVlan_cmd {v : LVlan} {f : FlowMod} (h : .flow f ∈ c.delVlan v) : f.cmd = .delete ∧ f.outPort = none ∧ f.mtch.items = [iVlan v.vid] ∧
    ((f.table = c.tf ∧ f.priority = 0) ∨ (f.table = c.ts ∧ f.priority = lowPriority)) := by
  unfold Cfg.delVlan at h
  simp only [List.mem_cons, List.not_mem_nil, or_false, Table.flowdel, OfMsg.flow.injEq] at h
  rcases h with rfl | rfl
  · exact ⟨rfl, rfl, rfl, Or.inl ⟨rfl, rfl⟩⟩
  · exact ⟨rfl, rfl, rfl, Or.inr ⟨rfl, rfl⟩⟩

theorem portDel_cmd (hb : c.Basic) {p : LPort} (hp : p ∈ c.ports) {f : FlowMod} (h : .flow f ∈ c.portDel p) : f.cmd = .delete := by
  unfold Cfg.portDel at h
  simp only [List.mem_append] at h
  rcases h with ((hm | hm) | hm) | hm
  · unfold Cfg.egressDel at hm
    rw [hb.noEgress] at hm
    simp at hm
  · unfold Cfg.switchDel at hm
    split at hm
    · cases hm
    · simp only [hb.lacp p hp, ne_eq, not_true_eq_false, if_false, List.append_nil, List.mem_append] at hm
      rcases hm with (hm | hm) | hm
      · unfold Learn.delHostFlows at hm
        simp only [hb.learnHairpin, List.append_nil, List.mem_cons, List.not_mem_nil, or_false, Table.flowdel, OfMsg.flow.injEq] at hm
        rcases hm with rfl | rfl <;> rfl
      · split at hm
        · simp only [List.mem_singleton, Table.flowdel, OfMsg.flow.injEq] at hm
          subst hm; rfl
        · cases hm
      · obtain ⟨vid, -, hm⟩ := List.mem_map.1 hm
        simp only [Table.flowdel, OfMsg.flow.injEq] at hm
        subst hm; rfl
  · unfold Cfg.lldpDel at hm
    split at hm
    · simp only [List.mem_singleton, Table.flowdel, OfMsg.flow.injEq] at hm
      subst hm; rfl
    · cases hm
  · unfold Cfg.outOnlyDel at hm
    split at hm
    · simp only [List.mem_singleton, Table.flowdel, OfMsg.flow.injEq] at hm
      subst hm; rfl
    · cases hm

theorem floodRules_cmd (hb : c.Basic) (d : Nat → Dyn) (v : LVlan) (cold md : Bool) {f : FlowMod}
    (hm : .flow f ∈ Flood.floodRules c.flood (c.fvlan d v) cold md) : (f.cmd = .delete ∨ f.cmd = (if md then .modifyStrict else .add)) ∧ f.table = c.tf := by
  have hg : c.flood.useGroups = false := hb.noGroups
  unfold Flood.floodRules at hm
  simp only [hg, Bool.false_eq_true, if_false, List.append_nil] at hm
  unfold Flood.multioutRules at hm
  obtain ⟨r, -, hm⟩ := List.mem_flatMap.1 hm
  unfold Flood.maskRules at hm
  split at hm
  · obtain ⟨p, -, hm⟩ := List.mem_flatMap.1 hm
    unfold Flood.combinatorialRule at hm
    simp only at hm
    split at hm
    · cases hm
    · simp only [List.mem_singleton, Flood.portRule, Flood.floodRule, OfMsg.flow.injEq] at hm
      subst hm; exact ⟨Or.inr rfl, rfl⟩
  · simp only [hg, Bool.false_eq_true, if_false] at hm
    rcases List.mem_append.1 hm with hm | hm
    · simp only [List.mem_singleton, Flood.floodRule, OfMsg.flow.injEq] at hm
      subst hm; exact ⟨Or.inr rfl, rfl⟩
    · obtain ⟨p, -, hm⟩ := List.mem_flatMap.1 hm
      unfold Flood.besideVlan at hm
      simp only at hm
      split at hm
      · cases hm
      · split at hm
        · split at hm
          · cases hm
          · simp only [List.mem_singleton, Table.flowdel, OfMsg.flow.injEq] at hm
            subst hm; exact ⟨Or.inl rfl, rfl⟩
        · simp only [List.mem_singleton, Flood.portRule, Flood.floodRule, OfMsg.flow.injEq] at hm
          subst hm; exact ⟨Or.inr rfl, rfl⟩

/-- Messages of the old configuration only delete, or change flood rules. -/
theorem OldMsg.cmd (hb : c.Basic) {f : FlowMod} (h : OldMsg c ch (.flow f)) (K : Nat → Prop) :
    f.cmd = .delete ∨ (f.cmd = .modifyStrict ∧ f.table = c.tf ∧ URule c K f.slot f.inst 0 0) := by
  cases h with
  | port h1 _ h2 => exact Or.inl (portDel_cmd hb h1 h2)
  | update hv h =>
    rcases (floodRules_cmd hb _ _ _ _ h).1 with hc | hc
    · exact Or.inl hc
    · have hc : f.cmd = .modifyStrict := hc
      exact Or.inr ⟨hc, ((updateVlan_u (K := K) (n := none) hb _ hv h).2.1 hc).2⟩
  | vlan _ _ h => exact Or.inl (delVlan_cmd h).1

/-- Messages of the new configuration add rules or delete. -/
theorem NewMsg.cmd (hb : c.Basic) {f : FlowMod} (h : NewMsg c ch (.flow f)) (K : Nat → Prop) :
    f.cmd = .delete ∨ (f.cmd = .add ∧ URule c K f.slot f.inst f.hard f.idle) := by
  have key : MsgU c K none false (.flow f) → f.cmd = .delete ∨ (f.cmd = .add ∧ URule c K f.slot f.inst f.hard f.idle) := by
    rintro ⟨h1, h2, -, h4⟩
    cases hc : f.cmd with
    | add => exact Or.inr ⟨rfl, h1 hc⟩
    | modifyStrict => exact absurd (h2 hc).1 (by simp)
    | delete => exact Or.inl rfl
    | deleteStrict => exact absurd hc h4
  cases h with
  | port h1 h2 => exact key (portAdd_u hb h1 h2)
  | add hv h => exact key (addVlan_u hb _ _ hv h)
  | vlan _ _ h => exact Or.inl (delVlan_cmd h).1

theorem phased (hb : c.Basic) (hb' : c'.Basic) : FlowReorder.Phased (oldMsgs c ch lag w) (newMsgs c' ch known lag w) := by
  have hstd : ∀ m ∈ oldMsgs c ch lag w ++ newMsgs c' ch known lag w, Std m := by
    intro m hm
    rcases List.mem_append.1 hm with hm | hm
    · exact (oldMsgs_mem hb hm).std hb
    · exact (newMsgs_mem hb' hm).std hb'
  refine ⟨?_, ?_, ?_, ?_, ?_⟩
  · intro f hf
    rcases (oldMsgs_mem hb hf).cmd hb (fun _ => False) with h | h
    · rw [h]; decide
    · rw [h.1]; decide
  · intro f hf
    rcases (newMsgs_mem hb' hf).cmd hb' (fun _ => False) with h | h
    · rw [h]; decide
    · rw [h.1]; decide
  · intro f g hf hg _ _ hs
    obtain ⟨x, hx, h1, h2, -⟩ := hstd _ hf
    obtain ⟨y, hy, g1, g2, -⟩ := hstd _ hg
    obtain rfl := OfMsg.flow.inj hx
    obtain rfl := OfMsg.flow.inj hy
    refine ⟨?_, h2.trans g2.symm⟩
    have hi : f.mtch.items = g.mtch.items := congrArg Slot.items hs
    cases hfm : f.mtch with
    | mk a b =>
      cases hgm : g.mtch with
      | mk a' b' =>
        rw [hfm] at hi h1
        rw [hgm] at hi g1
        simp only at hi h1 g1
        rw [hi, h1, g1]
  · intro f hf
    obtain ⟨x, hx, -, -, h⟩ := hstd _ hf
    obtain rfl := OfMsg.flow.inj hx
    exact h
  · intro m hm
    obtain ⟨x, hx, -⟩ := hstd _ hm
    exact ⟨x, hx⟩

end Faucet.L2
