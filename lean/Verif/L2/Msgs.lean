import Verif.L2.Rules

/-! # One standalone switch: the messages of each event -/

namespace Faucet.L2
open Faucet.OF
open Faucet.Learn (iInPort iEthDst iEthSrc iVlan host CInv)
open Faucet.HostCache (Port Entry)

/-- Known hosts are on members of their VLAN. -/
def HostsOk (c : Cfg) (st : Learn.St) : Prop :=
  ∀ vid m e, host st vid m = some e → ∃ q ∈ c.ports, q.number = e.port.number ∧ q.In vid

theorem vlan_table (c : Cfg) : (c.table .vlan).id = 0 := vlan_zero c.egressPipeline c.hasHairpin c.useClassification c.ipv4

theorem msgOk_filter (c : Cfg) (items : List MatchItem) (o : Nat) : MsgOk c (c.filterPackets items o) :=
  msgOk_drop c _ _ _ _

theorem pipelineInit_ok (c : Cfg) : ∀ m ∈ c.pipelineInit, MsgOk c m := by
  intro m hm
  unfold Cfg.pipelineInit at hm
  rcases List.mem_append.1 hm with hm | hm
  · split at hm
    · rw [List.mem_singleton.1 hm]; exact msgOk_filter c _ _
    · cases hm
  · rw [List.mem_singleton.1 hm]; exact msgOk_filter c _ _

theorem initialise_ok (c : Cfg) : ∀ m ∈ Flood.initialise c.flood, MsgOk c m := by
  intro m hm
  obtain ⟨d, -, rfl⟩ := List.mem_map.1 hm
  exact msgOk_drop c _ _ _ _

theorem default_ok (c : Cfg) {t : Pipeline.TableConfig} (ht : t ∈ Pipeline.tables c.conf) {m : OfMsg}
    (hm : Pipeline.defaultFlow c.conf t = some m) : MsgOk c m := by
  have h := defaults_ok c.egressPipeline c.hasHairpin c.useClassification c.ipv4 t ht
  rw [← conf_eq, hm] at h
  cases m with
  | flow f =>
    intro _
    simp only [okDefault, Bool.or_eq_true, beq_iff_eq, Bool.and_eq_true, bne_iff_ne, ne_eq] at h
    rcases h with h | ⟨h1, h2⟩
    · rw [h]; exact .drop
    · split at h2
      · rename_i n e
        rw [e]
        exact .on h1 (by simpa using h2)
      · cases h2
  | _ => simp [okDefault] at h

theorem defaults_msgs_ok (c : Cfg) : ∀ m ∈ c.defaults, MsgOk c m := by
  intro m hm
  unfold Cfg.defaults at hm
  rcases List.mem_append.1 hm with hm | hm
  · rcases List.mem_append.1 hm with hm | hm
    · rw [List.mem_singleton.1 hm]; exact msgOk_del c _ _ _ _ _
    · split at hm
      · rw [List.mem_singleton.1 hm]
        intro h; cases h
      · cases hm
  · obtain ⟨t, ht, hm⟩ := List.mem_flatMap.1 hm
    exact default_ok c ht (Option.mem_toList.1 hm)

theorem addVlan_ok (c : Cfg) (d : Nat → Dyn) (cold : Bool) {v : LVlan} (hv : v ∈ c.vlans) : ∀ m ∈ c.addVlan d cold v, MsgOk c m := by
  intro m hm
  unfold Cfg.addVlan at hm
  rcases List.mem_append.1 hm with hm | hm
  · rcases List.mem_append.1 hm with hm | hm
    · split at hm
      · rw [List.mem_singleton.1 hm]; exact msgOk_filter c _ _
      · cases hm
    · have hm := Option.mem_toList.1 hm
      unfold Pipeline.unknownFlow at hm
      rw [conf_eq, goto_out] at hm
      simp only [Option.map_some, Option.mem_def, Option.some.injEq] at hm
      subst hm
      intro _
      have ho := others_pos c.egressPipeline c.hasHairpin c.useClassification c.ipv4
      exact .ctrlOn ho.1 ho.2.2.2.2.1
  · exact floodRules_ok c d hv cold false m hm

theorem updateVlan_ok (c : Cfg) (d : Nat → Dyn) {v : LVlan} (hv : v ∈ c.vlans) : ∀ m ∈ c.updateVlan d v, MsgOk c m :=
  floodRules_ok c d hv false true

theorem mem_vlansOf {c : Cfg} {p : LPort} {v : LVlan} (h : v ∈ c.vlansOf p) : v ∈ c.vlans := by
  obtain ⟨x, -, hx⟩ := List.mem_filterMap.1 h
  exact (vlan_some hx).1

theorem vlanRule_ok (c : Cfg) {p : LPort} (hp : p ∈ c.ports) {push : Bool} {vid : Nat}
    (h : if push then p.native = some vid else vid ∈ p.tagged) : ∀ m ∈ c.vlanRule p push vid, MsgOk c m := by
  intro m hm
  have hm := Option.mem_toList.1 hm
  unfold Pipeline.portVlanFlow at hm
  have hf : Pipeline.forwardingTable c.conf (c.portVlan p push vid) = Pipeline.classTable c.conf := rfl
  rw [hf, conf_eq, goto_class] at hm
  simp only [Option.map_some, Option.mem_def, Option.some.injEq] at hm
  subst hm
  intro _
  have ho := others_pos c.egressPipeline c.hasHairpin c.useClassification c.ipv4
  have hv := vlan_zero c.egressPipeline c.hasHairpin c.useClassification c.ipv4
  cases push with
  | true => exact .untagged (vid := vid) hv hp h rfl ho.2.2.2.1
  | false =>
    have : FlowOk c _ (trimInst [.apply (p.mirror.map .output ++ (c.extFlag p).toList.map (.setField fVlanPcp)),
      .goto (Pipeline.idOf (cf c.egressPipeline c.hasHairpin c.useClassification c.ipv4)
        (Pipeline.classTable (cf c.egressPipeline c.hasHairpin c.useClassification c.ipv4)))]) :=
      .tagged (s := ⟨0, lowPriority, [iInPort p.number, iVlan vid]⟩) (vid := vid) rfl hp h rfl ho.2.2.2.1
    simpa [FlowMod.slot, hv, Cfg.portVlan, iInPort, iVlan] using this

theorem trim_ctrl : trimInst [.apply [.output portController]] = [.apply [.output portController]] := by decide

theorem switchAdd_ok (c : Cfg) {p : LPort} (hp : p ∈ c.ports) : ∀ m ∈ c.switchAdd p, MsgOk c m := by
  intro m hm
  unfold Cfg.switchAdd at hm
  split at hm
  · cases hm
  · rcases List.mem_append.1 hm with hm | hm
    · rcases List.mem_append.1 hm with hm | hm
      · obtain ⟨vid, hv, hm⟩ := List.mem_flatMap.1 hm
        exact vlanRule_ok c hp (push := false) (by simpa using hv) m hm
      · unfold Cfg.untaggedRule at hm
        split at hm
        · rename_i vid hn
          exact vlanRule_ok c hp (push := true) (by simpa using hn) m hm
        · split at hm
          · rw [List.mem_singleton.1 hm]; exact msgOk_drop c _ _ _ _
          · cases hm
    · split at hm
      · rename_i hl
        rw [List.mem_singleton.1 hm]
        intro _
        show FlowOk c _ (trimInst _)
        rw [trim_ctrl]
        exact .lacp (vlan_table c) hp hl rfl
      · cases hm

theorem egressAdd_ok (c : Cfg) {p : LPort} (hp : p ∈ c.ports) : ∀ m ∈ c.egressAdd p, MsgOk c m := by
  intro m hm
  unfold Cfg.egressAdd at hm
  split at hm
  · rename_i he
    have ho := ((others_pos c.egressPipeline c.hasHairpin c.useClassification c.ipv4).2.2.2.2.2.2 he).1
    rcases List.mem_append.1 hm with hm | hm
    · obtain ⟨vid, hv, rfl⟩ := List.mem_map.1 hm
      intro _
      have : FlowOk c ((⟨(c.table .egress).id, c.dpHigh, [⟨fMetadata, (Learn.egressMetadata p.number vid).1,
          some (Learn.egressMetadata p.number vid).2⟩, iVlan vid]⟩ : Slot))
          (trimInst [.apply (p.mirror.map .output ++ [.output p.number])]) :=
        .egressT (vid := vid) ho hp hv (by simp)
      simpa [FlowMod.slot] using this
    · obtain ⟨vid, hv, rfl⟩ := List.mem_map.1 hm
      intro _
      have : FlowOk c ((⟨(c.table .egress).id, c.dpHigh, [⟨fMetadata, (Learn.egressMetadata p.number vid).1,
          some (Learn.egressMetadata p.number vid).2⟩, iVlan vid]⟩ : Slot))
          (trimInst [.apply (p.mirror.map .output ++ [.popVlan] ++ [.output p.number])]) :=
        .egressU (vid := vid) ho hp (Option.mem_toList.1 hv) (by simp)
      simpa [FlowMod.slot] using this
  · cases hm

theorem portAdd_ok (c : Cfg) {p : LPort} (hp : p ∈ c.ports) : ∀ m ∈ c.portAdd p, MsgOk c m := by
  intro m hm
  unfold Cfg.portAdd at hm
  simp only [List.mem_append] at hm
  rcases hm with ((hm | hm) | hm) | hm
  · exact egressAdd_ok c hp m hm
  · exact switchAdd_ok c hp m hm
  · unfold Cfg.lldpAdd at hm
    split at hm
    · rename_i hl
      rw [List.mem_singleton.1 hm]
      intro _
      show FlowOk c _ (trimInst _)
      rw [trim_ctrl]
      exact .lldp (vlan_table c) hp hl rfl
    · cases hm
  · unfold Cfg.outOnlyAdd at hm
    split at hm
    · rw [List.mem_singleton.1 hm]; exact msgOk_drop c _ _ _ _
    · cases hm

theorem delHostFlows_ok (c : Cfg) (l : Learn.Cfg) (n : Nat) : ∀ m ∈ Learn.delHostFlows l n, MsgOk c m := by
  intro m hm
  unfold Learn.delHostFlows at hm
  simp only [List.mem_append, List.mem_cons, List.not_mem_nil, or_false] at hm
  rcases hm with (rfl | rfl) | hm
  · exact msgOk_del c _ _ _ _ _
  · exact msgOk_del c _ _ _ _ _
  · split at hm
    · rw [List.mem_singleton.1 hm]; exact msgOk_del c _ _ _ _ _
    · cases hm

theorem switchDel_ok (c : Cfg) (p : LPort) : ∀ m ∈ c.switchDel p, MsgOk c m := by
  intro m hm
  unfold Cfg.switchDel at hm
  split at hm
  · cases hm
  · simp only [List.mem_append] at hm
    rcases hm with ((hm | hm) | hm) | hm
    · exact delHostFlows_ok c _ _ m hm
    · split at hm
      · rw [List.mem_singleton.1 hm]; exact msgOk_del c _ _ _ _ _
      · cases hm
    · obtain ⟨vid, -, rfl⟩ := List.mem_map.1 hm
      exact msgOk_del c _ _ _ _ _
    · split at hm
      · rw [List.mem_singleton.1 hm]; exact msgOk_del c _ _ _ _ _
      · cases hm

theorem portDel_ok (c : Cfg) (p : LPort) : ∀ m ∈ c.portDel p, MsgOk c m := by
  intro m hm
  unfold Cfg.portDel at hm
  simp only [List.mem_append] at hm
  rcases hm with ((hm | hm) | hm) | hm
  · unfold Cfg.egressDel at hm
    split at hm
    · rw [List.mem_singleton.1 hm]; exact msgOk_del c _ _ _ _ _
    · cases hm
  · exact switchDel_ok c p m hm
  · unfold Cfg.lldpDel at hm
    split at hm
    · rw [List.mem_singleton.1 hm]; exact msgOk_del c _ _ _ _ _
    · cases hm
  · unfold Cfg.outOnlyDel at hm
    split at hm
    · rw [List.mem_singleton.1 hm]; exact msgOk_del c _ _ _ _ _
    · cases hm

theorem addVlans_ok (c : Cfg) (d : Nat → Dyn) (p : LPort) : ∀ m ∈ (c.vlansOf p).flatMap (c.addVlan d false), MsgOk c m := by
  intro m hm
  obtain ⟨v, hv, hm⟩ := List.mem_flatMap.1 hm
  exact addVlan_ok c d false (mem_vlansOf hv) m hm

theorem lagMsgs_ok (c : Cfg) (d : Nat → Dyn) (cold : Bool) {p : LPort} (hp : p ∈ c.ports) : ∀ m ∈ c.lagMsgs d cold p, MsgOk c m := by
  intro m hm
  unfold Cfg.lagMsgs at hm
  split at hm
  · rcases List.mem_cons.1 hm with rfl | hm
    · exact msgOk_del c _ _ _ _ _
    · exact addVlans_ok c d p m hm
  · rcases List.mem_cons.1 hm with rfl | hm
    · exact msgOk_drop c _ _ _ _
    · split at hm
      · cases hm
      · simp only [List.mem_append] at hm
        rcases hm with (hm | hm) | hm
        · exact switchDel_ok c p m hm
        · exact switchAdd_ok c hp m hm
        · exact addVlans_ok c d p m hm

theorem changeMsgs_ok (c : Cfg) (d : Nat → Dyn) (cold : Bool) {p : LPort} (hp : p ∈ c.ports) (l : LagChange) :
    ∀ m ∈ c.changeMsgs d cold p l, MsgOk c m := by
  intro m hm
  cases l with
  | none => cases hm
  | some f => exact lagMsgs_ok c d cold hp m hm

theorem connect_ok (c : Cfg) (d : Nat → Dyn) (up : List Nat) (lag : Nat → LagChange) : ∀ m ∈ c.connectMsgs d up lag, MsgOk c m := by
  intro m hm
  unfold Cfg.connectMsgs at hm
  simp only [List.mem_append] at hm
  rcases hm with (((hm | hm) | hm) | hm) | hm
  · exact defaults_msgs_ok c m hm
  · exact pipelineInit_ok c m hm
  · exact initialise_ok c m hm
  · obtain ⟨p, hp, hm⟩ := List.mem_flatMap.1 hm
    unfold Cfg.connectPort at hm
    split at hm
    · rcases List.mem_append.1 hm with hm | hm
      · exact portAdd_ok c hp m hm
      · exact changeMsgs_ok c d true hp _ m hm
    · cases hm
  · obtain ⟨v, hv, hm⟩ := List.mem_flatMap.1 hm
    exact addVlan_ok c d true hv m hm

theorem upMsgs_ok (c : Cfg) (d : Nat → Dyn) {p : LPort} (hp : p ∈ c.ports) (l : LagChange) : ∀ m ∈ c.upMsgs d p l, MsgOk c m := by
  intro m hm
  unfold Cfg.upMsgs at hm
  split at hm
  · simp only [List.mem_append] at hm
    rcases hm with (hm | hm) | hm
    · exact portAdd_ok c hp m hm
    · exact changeMsgs_ok c d false hp _ m hm
    · exact addVlans_ok c d p m hm
  · cases hm

theorem downMsgs_ok (c : Cfg) (d : Nat → Dyn) {p : LPort} (hp : p ∈ c.ports) (l : LagChange) : ∀ m ∈ c.downMsgs d p l, MsgOk c m := by
  intro m hm
  unfold Cfg.downMsgs at hm
  rcases List.mem_append.1 hm with hm | hm
  · split at hm
    · exact changeMsgs_ok c d false hp _ m hm
    · exact portDel_ok c p m hm
  · obtain ⟨v, hv, hm⟩ := List.mem_flatMap.1 hm
    exact updateVlan_ok c d (mem_vlansOf hv) m hm

/-! ## Learning -/

theorem deleteHost_ok (c : Cfg) (l : Learn.Cfg) (m vid : Nat) : ∀ x ∈ Learn.deleteHost l m vid, MsgOk c x := by
  intro x hm
  unfold Learn.deleteHost at hm
  simp only [List.mem_append, List.mem_cons, List.not_mem_nil, or_false] at hm
  rcases hm with (rfl | rfl) | hm
  · exact msgOk_del c _ _ _ _ _
  · exact msgOk_del c _ _ _ _ _
  · split at hm
    · rw [List.mem_singleton.1 hm]; exact msgOk_del c _ _ _ _ _
    · cases hm

theorem outputTable_ne (c : Cfg) : Learn.outputTable c.learn ≠ 0 := by
  have ho := others_pos c.egressPipeline c.hasHairpin c.useClassification c.ipv4
  unfold Learn.outputTable
  simp only [Cfg.learn, Cfg.hairpinTable]
  by_cases hh : c.hasHairpin = true
  · rw [if_pos hh]; exact ho.2.2.2.2.2.1 hh
  · rw [if_neg hh]; exact ho.2.1

theorem learnMsg_ok (c : Cfg) {q : LPort} (hq : q ∈ c.ports) {p : Port} (hn : p.number = q.number) {vid m : Nat} (hin : q.In vid)
    {del refresh : Bool} {tmo : Nat × Nat × Nat} {x : OfMsg} (h : Learn.LearnMsg c.learn p vid m del refresh tmo x) : MsgOk c x := by
  have ho := others_pos c.egressPipeline c.hasHairpin c.useClassification c.ipv4
  cases h with
  | del _ x hx => exact deleteHost_ok c _ _ _ x hx
  | src =>
    intro _
    show FlowOk c _ (trimInst _)
    rw [Learn.trimInst_goto]
    exact .on ho.1 (outputTable_ne c)
  | dst _ =>
    intro _
    show FlowOk c _ (trimInst _)
    rw [Learn.trimInst_dst, hn]
    refine .host (vid := vid) ho.2.1 hq hin ?_ (fun h => by cases h)
    simp [FlowMod.slot, Learn.dstItems]
  | dst2 _ _ _ =>
    intro _
    show FlowOk c _ (trimInst _)
    rw [Learn.trimInst_dst, hn]
    refine .host (vid := vid) ho.2.1 hq hin ?_ (fun h => by cases h)
    simp [FlowMod.slot, Learn.dstItems]
  | hairpin _ t ht =>
    have hh : c.hasHairpin = true ∧ t = c.table .hairpin := by
      simp only [Cfg.learn, Cfg.hairpinTable] at ht
      split at ht
      · rename_i h; exact ⟨h, (Option.some.inj ht).symm⟩
      · cases ht
    intro _
    show FlowOk c _ (trimInst _)
    rw [Learn.trimInst_output, hn]
    refine .host (vid := vid) ?_ hq hin ?_ (fun _ => ?_)
    · rw [hh.2]; exact ho.2.2.2.2.2.1 hh.1
    · simp [FlowMod.slot]
    · simp [FlowMod.slot]

end Faucet.L2
