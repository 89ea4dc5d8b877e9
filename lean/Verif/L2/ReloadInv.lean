import Verif.L2.ReloadMsgs

/-! # One standalone switch: what a reload leaves on the switch -/

namespace Faucet.L2
open Faucet.OF
open Faucet.FlowReorder (Dropped)
open Faucet.Learn (iInPort iEthDst iEthSrc iVlan host CInv)

variable {c c' : Cfg} {sec : Sections} {ch : Changes} {lag : Nat → Nat → LagChange} {w : Warm} {known : Nat → Bool} {K : Nat → Prop}

/-! ## Rules that are left -/

theorem covers_refl (l : List MatchItem) : coversItems l l = true := by
  unfold coversItems
  rw [List.all_eq_true]
  intro a ha
  rw [List.any_eq_true]
  refine ⟨a, ha, ?_⟩
  unfold MatchItem.covers
  cases a.mask <;> simp

theorem covers_vlan {vid : Nat} {l : List MatchItem} (h : iVlan vid ∈ l) : coversItems [iVlan vid] l = true := by
  unfold coversItems
  simp only [List.all_cons, List.all_nil, Bool.and_true]
  rw [List.any_eq_true]
  refine ⟨_, h, ?_⟩
  simp [MatchItem.covers, iVlan]

theorem kills_of {f : FlowMod} {s : Slot} {x : Body} (hc : f.cmd = .delete) (ht : f.table = s.table) (hi : coversItems f.mtch.items s.items = true)
    (ho : f.outPort = none) : f.kills s x = true := by
  simp [FlowMod.kills, hc, FlowMod.tableOk, ht, hi, FlowMod.outPortOk, ho]

/-- The new messages add nothing to the table of destinations. -/
theorem new_not_dst (hb : c.Basic) {f : FlowMod} (h : NewMsg c ch (.flow f)) (hc : f.cmd = .add) : f.table ≠ c.td := by
  obtain ⟨hc0, hs0, hd0, hf0, hsd, hsf, hdf, hcd, hcf, -⟩ := hb.distinct
  intro ht
  rcases h.cmd hb (fun _ => False) with h' | ⟨-, hr⟩
  · rw [hc] at h'; cases h'
  have hs : f.slot.table = c.td := ht
  have key : ∀ x : Nat, x ≠ c.td → f.table ≠ x := fun x hx h => hx (h.symm.trans ht)
  cases h with
  | port h1 h2 =>
    obtain ⟨g, hg, -⟩ := std_portAdd hb h1 h2
    generalize hm : OfMsg.flow f = m at h2
    unfold Cfg.portAdd at h2
    simp only [List.mem_append] at h2
    rcases h2 with ((h2 | h2) | h2) | h2
    · unfold Cfg.egressAdd at h2
      rw [hb.noEgress] at h2
      simp at h2
    · unfold Cfg.switchAdd at h2
      split at h2
      · cases h2
      · simp only [hb.lacp _ h1, ne_eq, not_true_eq_false, if_false, List.append_nil] at h2
        have hrule : ∀ p push vid, m ∈ c.vlanRule p push vid → f.table = 0 := by
          intro p push vid h2
          have h2 := Option.mem_toList.1 h2
          unfold Pipeline.portVlanFlow at h2
          obtain ⟨i, -, rfl⟩ := Option.map_eq_some_iff.1 h2
          simp only [Table.flowadd, OfMsg.flow.injEq] at hm
          rw [hm]; exact vlan_table c
        rcases List.mem_append.1 h2 with h2 | h2
        · obtain ⟨vid, hv, h2⟩ := List.mem_flatMap.1 h2
          exact key 0 (Ne.symm hd0) (hrule _ _ _ h2)
        · unfold Cfg.untaggedRule at h2
          split at h2
          · exact key 0 (Ne.symm hd0) (hrule _ _ _ h2)
          · split at h2
            · rw [List.mem_singleton.1 h2] at hm
              simp only [Table.flowdrop, Table.flowadd, OfMsg.flow.injEq] at hm
              exact key 0 (Ne.symm hd0) (by rw [hm]; exact vlan_table c)
            · cases h2
    · unfold Cfg.lldpAdd at h2
      split at h2
      · rw [List.mem_singleton.1 h2] at hm
        simp only [Table.toController, Table.flowadd, OfMsg.flow.injEq] at hm
        exact key 0 (Ne.symm hd0) (by rw [hm]; exact vlan_table c)
      · cases h2
    · unfold Cfg.outOnlyAdd at h2
      split at h2
      · rw [List.mem_singleton.1 h2] at hm
        simp only [Table.flowdrop, Table.flowadd, OfMsg.flow.injEq] at hm
        exact key 0 (Ne.symm hd0) (by rw [hm]; exact vlan_table c)
      · cases h2
  | @add d cold v hv h2 =>
    generalize hm : OfMsg.flow f = m at h2
    unfold Cfg.addVlan at h2
    simp only [List.mem_append] at h2
    rcases h2 with (h2 | h2) | h2
    · split at h2
      · rw [List.mem_singleton.1 h2] at hm
        exact key c.tc hcd (by rw [OfMsg.flow.inj hm])
      · cases h2
    · have h2 := Option.mem_toList.1 h2
      unfold Pipeline.unknownFlow at h2
      obtain ⟨i, -, rfl⟩ := Option.map_eq_some_iff.1 h2
      simp only [Table.flowadd, OfMsg.flow.injEq] at hm
      exact key c.ts hsd (by rw [hm]; rfl)
    · rw [← hm] at h2
      exact key c.tf (Ne.symm hdf) (floodRules_cmd hb d v cold false h2).2
  | vlan _ _ h => rw [(delVlan_cmd h).1] at hc; cases hc

theorem row_priority (r : Flood.Row) : r.priority ≠ 0 := by
  unfold Flood.Row.priority Flood.maskPriority
  have : matchPriority ≠ 0 := by decide
  omega

/-- A rule of the table of flood rules that has a match has a priority. -/
theorem flood_priority (hb : c.Basic) {sl : Slot} {inst : List Inst} {h i : Nat} (hr : URule c K sl inst h i) (ht : sl.table = c.tf)
    (hi : sl.items ≠ []) : sl.priority ≠ 0 := by
  obtain ⟨hc0, hs0, hd0, hf0, hsd, hsf, hdf, hcd, hcf, -⟩ := hb.distinct
  cases hr with
  | dVlan => exact absurd ht.symm hf0
  | dClass => exact absurd ht hcf
  | dSrc => exact absurd ht hsf
  | dDst => exact absurd ht hdf
  | dFlood => exact absurd rfl hi
  | dFib h => exact absurd ht (hb.fib h).flood
  | dVip h => exact absurd ht (hb.vip h).flood
  | untagged => exact absurd ht.symm hf0
  | tagged => exact absurd ht.symm hf0
  | untagMiss => exact absurd ht.symm hf0
  | lldp => exact absurd ht.symm hf0
  | outOnly => exact absurd ht.symm hf0
  | bcast => exact absurd ht hcf
  | ectp => exact absurd ht hcf
  | spoof => exact absurd ht hcf
  | unknown => exact absurd ht hsf
  | src => exact absurd ht hsf
  | ban => exact absurd ht hsf
  | dst => exact absurd ht hdf
  | @reserved d hd =>
    show Flood.maskPriority _ ≠ 0
    unfold Flood.maskPriority
    have : matchPriority ≠ 0 := by decide
    omega
  | floodV => exact row_priority _
  | floodP => exact Nat.succ_ne_zero _

theorem dropped_slot (hb : c.Basic) (hb' : c'.Basic) {d : FlowMod} (hd : Dropped (oldMsgs c ch lag w ++ newMsgs c' ch known lag w) d) :
    (∃ a, .flow a ∈ newMsgs c' ch known lag w ∧ a.cmd = .add ∧ a.slot = d.slot) ∨
      (∃ a, .flow a ∈ oldMsgs c ch lag w ∧ d.table = c.tf ∧ a.slot = d.slot ∧ URule c (fun _ => False) d.slot a.inst 0 0) := by
  obtain ⟨a, ha, hadd, hs⟩ := hd
  rcases List.mem_append.1 ha with ha | ha
  · rcases (oldMsgs_mem hb ha).cmd hb (fun _ => False) with h | ⟨-, h2, h3⟩
    · simp [FlowReorder.isFlowAdd, h] at hadd
    · exact Or.inr ⟨a, ha, (congrArg Slot.table hs).symm.trans h2, hs, hs ▸ h3⟩
  · rcases (newMsgs_mem hb' ha).cmd hb' (fun _ => False) with h | ⟨h2, -⟩
    · simp [FlowReorder.isFlowAdd, h] at hadd
    · exact Or.inl ⟨a, ha, h2, hs⟩

theorem dstInst_same (hb : c.Basic) (hb' : c'.Basic) (hw : c.WF) (hw' : c'.WF) {q : LPort} (hq : q ∈ c.ports) (hq' : q ∈ c'.ports) (vid : Nat) :
    Learn.dstInst c'.learn q.number vid = Learn.dstInst c.learn q.number vid := by
  have e1 : c'.learn.egress = c.learn.egress := by
    simp [Cfg.learn, Cfg.egressTo, hb.noEgress, hb'.noEgress]
  have e2 : c'.learn.hasExternals = c.learn.hasExternals := by
    show c'.hasExternals = c.hasExternals
    rw [hb.noExternals, hb'.noExternals]
  have e3 : c'.learn.mirror q.number = c.learn.mirror q.number := by
    show c'.mirrors q.number = c.mirrors q.number
    rw [mirrors_of hw hq, mirrors_of hw' hq']
  have e4 : c'.learn.untagged vid q.number = c.learn.untagged vid q.number := by
    show c'.isUntagged vid q.number = c.isUntagged vid q.number
    have key : ∀ {c : Cfg}, c.WF → q ∈ c.ports → c.isUntagged vid q.number = (q.native == some vid) := by
      intro c hw hq
      unfold Cfg.isUntagged
      cases hn : q.native == some vid with
      | true => exact List.any_eq_true.2 ⟨q, hq, by simp [hn]⟩
      | false =>
        rw [List.any_eq_false]
        intro p hp h
        simp only [Bool.and_eq_true, beq_iff_eq] at h
        rw [port_inj hw hp hq h.1] at h
        simp [h.2] at hn
    rw [key hw hq, key hw' hq']
  unfold Learn.dstInst Learn.pipelineOutput Learn.outputPort
  rw [e1, e2, e3, e4]

theorem dst_outputs (hb : c.Basic) {b : Body} {n vid : Nat} (h : b.inst = Learn.dstInst c.learn n vid) : b.outputsTo n = true := by
  have e1 : c.learn.egress = none := by simp [Cfg.learn, Cfg.egressTo, hb.noEgress]
  unfold Body.outputsTo
  rw [h]
  unfold Learn.dstInst Learn.pipelineOutput Learn.outputPort
  simp only [e1, List.any_cons, List.any_nil, Bool.or_false, List.any_eq_true, beq_iff_eq, exists_eq_right]
  split <;> simp

/-- **Rules of the old configuration that a reload leaves are rules of the new one.** -/
theorem carry (hw : c.WF) (hb : c.Basic) (h : Reloadable c c' sec) (hch : (changes c c' sec).Same ch) {s : Slot} {x : Body} {inst : List Inst}
    (hr : URule c K s inst x.hard x.idle) (hx : inst = x.inst ∨ s.table = c.tf)
    (hk : ∀ d, .flow d ∈ oldMsgs c ch lag w ++ newMsgs c' ch known lag w → d.kills s x = true →
      Dropped (oldMsgs c ch lag w ++ newMsgs c' ch known lag w) d)
    (hna : ∀ f, .flow f ∈ oldMsgs c ch lag w ++ newMsgs c' ch known lag w → f.cmd = .add → f.slot ≠ s) :
    URule c' K s inst x.hard x.idle := by
  have hb' := h.basic
  have hw' := h.wf
  obtain ⟨hc0, hs0, hd0, hf0, hsd, hsf, hdf, hcd, hcf, -⟩ := hb.distinct
  obtain ⟨t1, t2, t3, t4⟩ := h.dp.tables hb hb'
  have hrows := h.dp.rows
  -- a delete of exactly this rule is not there, unless it is a flood rule
  have exact0 : ∀ d, .flow d ∈ oldMsgs c ch lag w ++ newMsgs c' ch known lag w → d.cmd = .delete → d.outPort = none → d.slot = s →
      d.table ≠ c.tf → False := by
    intro d hd hc ho hs ht
    rcases dropped_slot hb hb' (hk d hd (kills_of hc (congrArg Slot.table hs)
      (by rw [show d.mtch.items = s.items from congrArg Slot.items hs]; exact covers_refl _) ho)) with ⟨a, ha, h1, h2⟩ | ⟨a, -, h2, -⟩
    · exact hna a (List.mem_append_right _ ha) h1 (h2.trans hs)
    · exact ht h2
  have port0 : ∀ p ∈ c.ports, ∀ items prio, (c.table .vlan).flowdel items prio ∈ c.portDel p → s = ⟨0, prio, items⟩ → p ∈ c'.ports := by
    intro p hp items prio hm hs
    by_contra hno
    have hn : p.number ∈ ch.delP ∨ p.number ∈ ch.chP := by
      by_contra hn
      rw [not_or] at hn
      exact hno (port_same hw h hch hp hn.1 hn.2)
    refine exact0 _ (List.mem_append_left _ (oldMsgs_port hw hb hp hn hm)) rfl rfl ?_ ?_
    · rw [hs]
      show (⟨(c.table .vlan).id, prio, items⟩ : Slot) = _
      rw [vlan_table]
    · show (c.table .vlan).id ≠ c.tf
      rw [vlan_table]; exact Ne.symm hf0
  have vlan0 : ∀ v ∈ c.vlans, (v.vid ∈ ch.delV → False) → ∃ v' ∈ c'.vlans, v'.vid = v.vid := by
    intro v hv hd
    by_contra hno
    refine hd ((hch.delV _).1 ?_)
    show v.vid ∈ vlanDeleted c c'
    unfold vlanDeleted
    rw [List.mem_filter]
    refine ⟨mem_vidList.2 ⟨v, hv, rfl⟩, ?_⟩
    simp only [Bool.not_eq_true', List.contains_eq_mem, decide_eq_false_iff_not]
    intro hin
    exact hno (mem_vidList.1 hin)
  -- the VLAN of a flood rule stays and is not changed
  have flood0 : ∀ v ∈ c.vlans, s.table = c.tf → iVlan v.vid ∈ s.items → v ∈ c'.vlans ∧ v.vid ∉ ch.chV := by
    intro v hv ht hi
    have nodel : ∀ d, .flow d ∈ oldMsgs c ch lag w ++ newMsgs c' ch known lag w → d.cmd = .delete → d.outPort = none → d.table = c.tf →
        d.priority = 0 → d.mtch.items = [iVlan v.vid] → False := by
      intro d hd h1 h2 h3 h4 h5
      rcases dropped_slot hb hb' (hk d hd (kills_of h1 (h3.trans ht.symm) (by rw [h5]; exact covers_vlan hi) h2)) with ⟨a, ha, h6, h7⟩ | ⟨a, -, -, h6, h7⟩
      · rcases (newMsgs_mem hb' ha).cmd hb' (fun _ => False) with h8 | ⟨-, h8⟩
        · rw [h6] at h8; cases h8
        · refine flood_priority hb' h8 ?_ ?_ ?_
          · rw [h7, t4]; exact h3
          · rw [h7]; show d.mtch.items ≠ []; rw [h5]; simp
          · rw [h7]; exact h4
      · refine flood_priority hb h7 h3 ?_ h4
        show d.mtch.items ≠ []; rw [h5]; simp
    have hdel : v.vid ∈ ch.delV → False := by
      intro hd
      refine nodel _ (List.mem_append_left _ (oldMsgs_vlan hw hv hd (m := (c.table .flood).flowdel [iVlan v.vid]) ?_)) rfl rfl rfl rfl rfl
      simp [Cfg.delVlan]
    obtain ⟨v', hv', hvid⟩ := vlan0 v hv hdel
    have hnc : v'.vid ∉ ch.chV := by
      intro hin
      refine nodel _ (List.mem_append_right _ (newMsgs_vlan hw' hv' hin (m := (c'.table .flood).flowdel [iVlan v'.vid]) (Or.inl ?_)))
        rfl rfl ?_ rfl ?_
      · simp [Cfg.delVlan]
      · exact t4
      · show [iVlan v'.vid] = _; rw [hvid]
    obtain ⟨hvc, -, -⟩ := vlan_same hw h hch hv' hnc
    have : v' = v := List.inj_on_of_nodup_map hw.vnodup hvc hv hvid
    subst this
    exact ⟨hv', hnc⟩
  generalize x.hard = hard, x.idle = idle at hr ⊢
  cases hr with
  | dVlan => exact .dVlan
  | dClass hcl => rw [← t1, ← t2]; exact .dClass (by rw [h.dp]; exact hcl)
  | dSrc => rw [← t2, ← t3]; exact .dSrc
  | dDst => rw [← t3, ← t4]; exact .dDst
  | dFlood => rw [← t4]; exact .dFlood
  | dFib hr => rw [← (h.dp.routing hb hb').1]; exact .dFib (by rw [h.dp]; exact hr)
  | dVip hr => rw [← (h.dp.routing hb hb').2]; exact .dVip (by rw [h.dp]; exact hr)
  | @untagged p vid hp hn =>
    rw [← t1]
    refine .untagged (port0 p hp [iInPort p.number, iUntagged] lowPriority ?_ rfl) hn
    have hv : p.vids ≠ [] := List.ne_nil_of_mem (mem_vids.2 (Or.inl hn))
    simp [Cfg.portDel, Cfg.switchDel, hv, hn]
  | @tagged p vid hp hn =>
    rw [← t1]
    refine .tagged (port0 p hp [iInPort p.number, iVlan vid] lowPriority ?_ rfl) hn
    have hv : p.vids ≠ [] := List.ne_nil_of_mem (mem_vids.2 (Or.inr hn))
    simp only [Cfg.portDel, Cfg.switchDel, hv, if_false, List.mem_append]
    exact Or.inl (Or.inl (Or.inr (Or.inl (Or.inr (List.mem_map.2 ⟨vid, hn, rfl⟩)))))
  | @untagMiss p hp hn hc hv =>
    refine .untagMiss (port0 p hp [iInPort p.number, iUntagged] lowPriority ?_ rfl) hn hc hv
    simp [Cfg.portDel, Cfg.switchDel, hv, hc]
  | @lldp p hp hn =>
    have e : c'.dpHighest = c.dpHighest := by rw [h.dp]
    rw [← e]
    refine .lldp (port0 p hp (lldpItems p.number) c.dpHighest ?_ rfl) hn
    simp [Cfg.portDel, Cfg.lldpDel, hn]
  | @outOnly p hp hn =>
    have e : c'.dpHighest = c.dpHighest := by rw [h.dp]
    rw [← e]
    refine .outOnly (port0 p hp [iInPort p.number] c.dpHighest ?_ rfl) hn
    simp [Cfg.portDel, Cfg.outOnlyDel, hn]
  | bcast => rw [← t1]; exact .bcast
  | ectp => rw [← t1]; exact .ectp
  | @spoof v hv =>
    obtain ⟨v', hv', he⟩ := h.gateways v hv
    rw [← t1, ← he]; exact .spoof hv'
  | @unknown v hv =>
    obtain ⟨v', hv', hvid⟩ := vlan0 v hv (by
      intro hd
      refine exact0 _ (List.mem_append_left _ (oldMsgs_vlan hw hv hd (m := (c.table .ethSrc).flowdel [iVlan v.vid] lowPriority) ?_)) rfl rfl rfl hsf
      simp [Cfg.delVlan])
    rw [← t2, ← t3, ← hvid]
    exact .unknown hv'
  | src hm => rw [← t2, ← t3]; exact .src hm
  | ban hl =>
    have e : c'.learnBan = c.learnBan := by rw [h.dp]
    rw [← t2, ← e]
    exact .ban (fun hu => hl (h.limits hu))
  | @dst q vid m h' i' hq hin hK =>
    have hx : Learn.dstInst c.learn q.number vid = x.inst := by
      rcases hx with hx | hx
      · exact hx
      · exact absurd hx hdf
    have hq' : q ∈ c'.ports := by
      by_contra hno
      have hn : q.number ∈ ch.delP ∨ q.number ∈ ch.chP := by
        by_contra hn
        rw [not_or] at hn
        exact hno (port_same hw h hch hq hn.1 hn.2)
      have hv : q.vids ≠ [] := List.ne_nil_of_mem (mem_vids.2 hin)
      have hm : (c.table .ethDst).flowdel [] 0 (some q.number) ∈ c.portDel q := by
        have : (c.table .ethDst).flowdel [] 0 (some q.number) ∈ Learn.delHostFlows c.learn q.number := by
          unfold Learn.delHostFlows
          exact List.mem_append_left _ (List.mem_cons_of_mem _ (List.mem_cons_self))
        simp only [Cfg.portDel, Cfg.switchDel, hv, if_false, List.mem_append]
        exact Or.inl (Or.inl (Or.inr (Or.inl (Or.inl (Or.inl this)))))
      have hmem := oldMsgs_port (lag := lag) (w := w) hw hb hq hn hm
      rcases dropped_slot hb hb' (hk _ (List.mem_append_left _ hmem) (by
        simp [FlowMod.kills, FlowMod.tableOk, FlowMod.outPortOk, coversItems, dst_outputs hb hx.symm])) with ⟨a, ha, h1, h2⟩ | ⟨a, -, h2, -⟩
      · exact new_not_dst hb' (newMsgs_mem hb' ha) h1 (by
          rw [t3]; exact congrArg Slot.table h2)
      · exact hdf h2
    rw [← t3, ← dstInst_same hb hb' hw hw' hq hq']
    exact .dst hq' hin hK
  | reserved hd => rw [← t4]; exact .reserved hd
  | @floodV d v r hv hr hc =>
    obtain ⟨hv', hnc⟩ := flood0 v hv rfl (row_vlan r v.vid none)
    obtain ⟨k1, k2, -⟩ := keys_same hw h hch hv' hnc
    rw [vlanActs_eq hb, ← k1, ← k2, ← vlanActs_eq hb' d v r.unicast, ← t4]
    exact .floodV hv' (by rw [hrows]; exact hr) (by rw [h.dp]; exact hc)
  | @floodP d v r p hv hr hp hin hup =>
    obtain ⟨hv', hnc⟩ := flood0 v hv rfl (row_vlan r v.vid (some p.number))
    obtain ⟨k1, k2, k3⟩ := keys_same hw h hch hv' hnc
    obtain ⟨-, -, hmem⟩ := vlan_same hw h hch hv' hnc
    obtain ⟨p', hp', hn, hin'⟩ := (hmem p.number).1 ⟨p, hp, rfl, hin⟩
    have hkey := k3 p hp p' hp' hn.symm hin
    rw [portActs_eq hb d v _ _ hp hup, ← k1, ← k2, ← hkey, ← portActs_eq hb' d v r.unicast r.ethType.isNone hp' (by rw [hn]; exact hup), ← t4, ← hn]
    exact .floodP hv' (by rw [hrows]; exact hr) hp' hin' (by rw [hn]; exact hup)

theorem reload_flows (hw : c.WF) (hb : c.Basic) (h : Reloadable c c' sec) (hch : (changes c c' sec).Same ch) {sh : List OfMsg → List OfMsg}
    (hsh : ∀ l, (sh l).Perm l) {bar : Bool} {out : List OfMsg}
    (hout : FlowReorder.reorder sh bar (oldMsgs c ch lag w ++ newMsgs c' ch known lag w) = some out) {sw : Switch} (hf : UFlows c K sw) :
    UFlows c' K (sw.execAll out) := by
  intro s z hz
  rcases FlowReorder.batch_at hsh (phased hb h.basic) hout sw s with ⟨f, hf1, hf2, hf3, hf4⟩ | ⟨hna, b, h1, -, h2⟩
  · rw [hz] at hf4
    obtain rfl := Option.some.inj hf4
    rcases (newMsgs_mem h.basic hf1).cmd h.basic K with h' | ⟨-, h'⟩
    · rw [hf2] at h'; cases h'
    · rw [← hf3]; exact h'
  · rcases h2 with h2 | ⟨f, hf1, hf2, hf3, h2⟩
    · rw [hz] at h2
      obtain ⟨h3, h4⟩ := h1 z h2.symm
      exact carry hw hb h hch (hf s z h3) (Or.inl rfl) h4 hna
    · rw [hz] at h2
      obtain ⟨x, hx, rfl⟩ := Option.map_eq_some_iff.1 h2.symm
      obtain ⟨h3, h4⟩ := h1 x hx
      rcases (oldMsgs_mem hb hf1).cmd hb K with h' | ⟨-, ht, h'⟩
      · rw [hf2] at h'; cases h'
      · rw [hf3] at h'
        have hst : s.table = c.tf := by rw [← hf3]; exact ht
        obtain ⟨e1, e2⟩ := flood_permanent hb (hf s x h3) hst
        refine carry hw hb h hch (x := x) (inst := f.inst) ?_ (Or.inr hst) h4 hna
        rw [e1, e2]; exact h'

/-! ## Rules that are needed -/

theorem DelU.back (h : Reloadable c c' sec) (hb : c.Basic) {f : FlowMod} (hd : DelU c' none f) : DelU c none f := by
  obtain ⟨t1, t2, t3, t4⟩ := h.dp.tables hb h.basic
  cases hd with
  | port hn _ _ => cases hn
  | flood h1 h2 h3 => exact .flood (by rw [h.dp] at h1; exact h1) (h2.trans t4) h3
  | out h1 h2 => exact .out (h1.trans t3) h2
  | hostSrc h1 h2 => exact .hostSrc (h1.trans t2) h2
  | hostDst h1 h2 => exact .hostDst (h1.trans t3) h2

theorem row_vlan_value {r : Flood.Row} {vid vid' : Nat} {i : Option Nat} {b : MatchItem} (hb : b ∈ r.items vid i) (hf : b.field = fVlanVid)
    (hv : b.value = vidPresent vid') : vidPresent vid = vidPresent vid' := by
  unfold Flood.Row.items at hb
  simp only [List.mem_append, List.mem_singleton] at hb
  rcases hb with ((hb | hb) | hb) | rfl
  · split at hb
    · rw [List.mem_singleton.1 hb] at hf; exact absurd hf (by show fInPort ≠ fVlanVid; decide)
    · cases hb
  · split at hb
    · rw [List.mem_singleton.1 hb] at hf; exact absurd hf (by show fEthDst ≠ fVlanVid; decide)
    · cases hb
  · split at hb
    · rw [List.mem_singleton.1 hb] at hf; exact absurd hf (by show fEthType ≠ fVlanVid; decide)
    · cases hb
  · exact hv

/-- Deleting the VLAN does not hit the rule. -/
def Spared (c : Cfg) (sl : Slot) (vid : Nat) : Prop :=
  (sl.table ≠ c.ts ∧ sl.table ≠ c.tf) ∨ ∀ b ∈ sl.items, b.field = fVlanVid → b.value ≠ vidPresent vid

theorem delVlan_spares (hb : c.Basic) {v : LVlan} {f : FlowMod} (hf : .flow f ∈ c.delVlan v) {sl : Slot} (hs : Spared c sl v.vid) {x : Body} :
    f.kills sl x = false := by
  obtain ⟨hc0, hs0, hd0, hf0, hsd, hsf, hdf, hcd, hcf, -, -, hsA, hdA, hfA, -⟩ := hb.distinct
  obtain ⟨h1, h2, h3, h4⟩ := delVlan_cmd hf
  by_contra hk
  simp only [FlowMod.kills, h1, Bool.not_eq_false, Bool.and_eq_true, FlowMod.tableOk, Bool.or_eq_true, beq_iff_eq] at hk
  obtain ⟨⟨htab, hcov⟩, -⟩ := hk
  rw [h3] at hcov
  obtain ⟨b, hbm, hbf, hbv⟩ := covers_field hcov List.mem_cons_self rfl
  rcases hs with ⟨hs1, hs2⟩ | hs
  · rcases h4 with ⟨h4, -⟩ | ⟨h4, -⟩ <;> rw [h4] at htab
    · rcases htab with h | h
      · exact absurd h hfA
      · exact hs2 h.symm
    · rcases htab with h | h
      · exact absurd h hsA
      · exact hs1 h.symm
  · exact hs b hbm hbf hbv

theorem spared_row {r : Flood.Row} {vid vid' t n : Nat} {i : Option Nat} (h1 : vid < 4096) (h2 : vid' < 4096) (h : vid ≠ vid') :
    Spared c ⟨t, n, r.items vid i⟩ vid' :=
  Or.inr fun _ hb hf hv => h (Learn.vidPresent_inj h1 h2 (row_vlan_value hb hf hv))

/-- Rules that are needed after the reload are added, or were needed before it and are not deleted. -/
theorem needed_old (hw : c.WF) (hb : c.Basic) (h : Reloadable c c' sec) (hch : (changes c c' sec).Same ch) {u : Nat → Bool}
    (hkn : ∀ p ∈ c'.ports, p.enabled = true → u p.number = true → known p.number = true)
    (hadd : ∀ p ∈ c'.ports, p.enabled = true → p.number ∈ ch.addP → known p.number = true → (w.dAdd p.number).physUp = true)
    (hend : ∀ p ∈ c'.ports, p.enabled = true → u p.number = true → (w.dEnd p.number).physUp = true) {sl : Slot} (hn : Needed c' u sl) :
    Adds (newMsgs c' ch known lag w) sl ∨
      (Needed c (fun n => u n && !(ch.delP.contains n || ch.chP.contains n)) sl ∧ ∀ vid < 4096, vid ∈ ch.delV ∨ vid ∈ ch.chV → Spared c sl vid) := by
  have hb' := h.basic
  have hw' := h.wf
  obtain ⟨hc0, hs0, hd0, hf0, hsd, hsf, hdf, hcd, hcf, hcs, -⟩ := hb.distinct
  obtain ⟨t1, t2, t3, t4⟩ := h.dp.tables hb hb'
  have hnd : ∀ v' ∈ c'.vlans, v'.vid ∉ ch.delV := by
    intro v' hv' hd
    have hd : v'.vid ∈ vlanDeleted c c' := (hch.delV _).2 hd
    unfold vlanDeleted at hd
    have := (List.mem_filter.1 hd).2
    simp only [Bool.not_eq_true', List.contains_eq_mem, decide_eq_false_iff_not] at this
    exact this (mem_vidList.2 ⟨v', hv', rfl⟩)
  -- a port that is not added or changed
  have hport : ∀ p ∈ c'.ports, p.number ∉ ch.addP → p.number ∉ ch.chP → p ∈ c.ports ∧ p.number ∉ ch.delP := by
    intro p hp h1 h2
    have hin : ∃ q ∈ c.ports, q.number = p.number := by
      by_contra hno
      refine h1 ((hch.addP _).1 ?_)
      show p.number ∈ portAdded c c'
      unfold portAdded
      rw [List.mem_filter]
      refine ⟨mem_nums.2 ⟨p, hp, rfl⟩, ?_⟩
      simp only [Bool.not_eq_true', List.contains_eq_mem, decide_eq_false_iff_not]
      exact fun hin => hno (mem_nums.1 hin)
    have hd : p.number ∉ ch.delP := by
      intro hd
      have hd : p.number ∈ portDeleted c c' := (hch.delP _).2 hd
      unfold portDeleted at hd
      have := (List.mem_filter.1 hd).2
      simp only [Bool.not_eq_true', List.contains_eq_mem, decide_eq_false_iff_not] at this
      exact this (mem_nums.2 ⟨p, hp, rfl⟩)
    obtain ⟨q, hq, hqn⟩ := hin
    have hq' := port_same hw h hch hq (by rw [hqn]; exact hd) (by rw [hqn]; exact h2)
    rw [← port_inj hw' hq' hp hqn]
    exact ⟨hq, by rw [hqn]; exact hd⟩
  have hvlan : ∀ v' ∈ c'.vlans, v'.vid ∉ ch.chV → ∀ vid, vid ∈ ch.delV ∨ vid ∈ ch.chV → v'.vid ≠ vid := by
    intro v' hv' hc vid hvid he
    rcases hvid with hvid | hvid
    · exact hnd v' hv' (he ▸ hvid)
    · exact hc (he ▸ hvid)
  have zero : ∀ {n items} vid, Spared c ⟨0, n, items⟩ vid := fun vid => Or.inl ⟨Ne.symm hs0, Ne.symm hf0⟩
  have hup : ∀ p : LPort, u p.number = true → p.number ∉ ch.delP → p.number ∉ ch.chP →
      (u p.number && !(ch.delP.contains p.number || ch.chP.contains p.number)) = true := by
    intro p h1 h2 h3
    simp [h1, h2, h3]
  cases hn with
  | cls hc =>
    refine Or.inr ⟨?_, fun vid _ _ => Or.inr (fun b hb => by cases hb)⟩
    rw [t1]; exact .cls (by rw [h.dp] at hc; exact hc)
  | src =>
    refine Or.inr ⟨?_, fun vid _ _ => Or.inr (fun b hb => by cases hb)⟩
    rw [t2]; exact .src
  | dst =>
    refine Or.inr ⟨?_, fun vid _ _ => Or.inr (fun b hb => by cases hb)⟩
    rw [t3]; exact .dst
  | @unknown v' hv' =>
    by_cases hc : v'.vid ∈ ch.chV
    · exact Or.inl ((addVlan_unknown hb' _ true _).mono (fun m hm => newMsgs_vlan hw' hv' hc (Or.inr hm)))
    · obtain ⟨hv, -, -⟩ := vlan_same hw h hch hv' hc
      refine Or.inr ⟨by rw [t2]; exact .unknown hv, fun vid h1 h2 => Or.inr ?_⟩
      intro b hbm _ hbv
      rw [List.mem_singleton.1 hbm] at hbv
      exact hvlan v' hv' hc vid h2 (Learn.vidPresent_inj (hw'.vid v' hv') h1 hbv)
  | @floodV v' r hv' hr hcomb =>
    by_cases hc : v'.vid ∈ ch.chV
    · exact Or.inl ((addVlan_floodV hb' _ true hv' hr hcomb).mono (fun m hm => newMsgs_vlan hw' hv' hc (Or.inr hm)))
    · obtain ⟨hv, -, -⟩ := vlan_same hw h hch hv' hc
      refine Or.inr ⟨?_, fun vid h1 h2 => spared_row (hw'.vid v' hv') h1 (hvlan v' hv' hc vid h2)⟩
      rw [t4]
      exact .floodV hv (by rw [← h.dp.rows]; exact hr) (by rw [h.dp] at hcomb; exact hcomb)
  | @untagged p vid hp he hu hnat =>
    by_cases hc : p.number ∈ ch.addP ∨ p.number ∈ ch.chP
    · exact Or.inl ((portAdd_untagged hb' hnat).mono ((newMsgs_port hw' hp he ⟨hc, hkn p hp he hu⟩).1))
    · rw [not_or] at hc
      obtain ⟨h1, h2⟩ := hport p hp hc.1 hc.2
      exact Or.inr ⟨.untagged h1 he (hup p hu h2 hc.2) hnat, fun vid _ _ => zero vid⟩
  | @tagged p vid hp he hu hnat =>
    by_cases hc : p.number ∈ ch.addP ∨ p.number ∈ ch.chP
    · exact Or.inl ((portAdd_tagged hb' hnat).mono ((newMsgs_port hw' hp he ⟨hc, hkn p hp he hu⟩).1))
    · rw [not_or] at hc
      obtain ⟨h1, h2⟩ := hport p hp hc.1 hc.2
      exact Or.inr ⟨.tagged h1 he (hup p hu h2 hc.2) hnat, fun vid _ _ => zero vid⟩
  | @floodP v' r p q hv' hr hcomb hp he hu hin hq hqin hne =>
    by_cases hcv : v'.vid ∈ ch.chV
    · exact Or.inl ((addVlan_floodP hw' hb' _ true hv' hr hcomb hp (hend p hp he hu) hin hq hqin hne).mono
        (fun m hm => newMsgs_vlan hw' hv' hcv (Or.inr hm)))
    by_cases hc : p.number ∈ ch.addP ∨ p.number ∈ ch.chP
    · left
      rcases (newMsgs_port (lag := lag) (w := w) hw' hp he ⟨hc, hkn p hp he hu⟩).2 v' hv' hin with ⟨h1, h2⟩ | ⟨h1, h2⟩
      · exact (addVlan_floodP hw' hb' _ false hv' hr hcomb hp (hadd p hp he h1 (hkn p hp he hu)) hin hq hqin hne).mono h2
      · exact (addVlan_floodP hw' hb' _ false hv' hr hcomb hp (hend p hp he hu) hin hq hqin hne).mono h2
    · rw [not_or] at hc
      obtain ⟨h1, h2⟩ := hport p hp hc.1 hc.2
      obtain ⟨hv, -, hmem⟩ := vlan_same hw h hch hv' hcv
      obtain ⟨q0, hq0, hqn, hqin0⟩ := (hmem q.number).2 ⟨q, hq, rfl, hqin⟩
      refine Or.inr ⟨?_, fun vid h1 h2 => spared_row (hw'.vid v' hv') h1 (hvlan v' hv' hcv vid h2)⟩
      rw [t4]
      refine .floodP hv (by rw [← h.dp.rows]; exact hr) (by rw [h.dp] at hcomb; exact hcomb) h1 he (hup p hu h2 hc.2) hin hq0 hqin0 ?_
      intro he
      refine hne (port_inj hw' hq hp ?_)
      rw [← hqn, he]

theorem reload_present (hw : c.WF) (hb : c.Basic) (h : Reloadable c c' sec) (hch : (changes c c' sec).Same ch) {u : Nat → Bool}
    (hkn : ∀ p ∈ c'.ports, p.enabled = true → u p.number = true → known p.number = true)
    (hadd : ∀ p ∈ c'.ports, p.enabled = true → p.number ∈ ch.addP → known p.number = true → (w.dAdd p.number).physUp = true)
    (hend : ∀ p ∈ c'.ports, p.enabled = true → u p.number = true → (w.dEnd p.number).physUp = true) {sh : List OfMsg → List OfMsg}
    (hsh : ∀ l, (sh l).Perm l) {bar : Bool} {out : List OfMsg}
    (hout : FlowReorder.reorder sh bar (oldMsgs c ch lag w ++ newMsgs c' ch known lag w) = some out) {sw : Switch} (hf : UFlows c K sw)
    (hp : ∀ sl, Needed c u sl → sw.flows sl ≠ none) : ∀ sl, Needed c' u sl → (sw.execAll out).flows sl ≠ none := by
  intro sl hn
  have hb' := h.basic
  rcases FlowReorder.batch_at hsh (phased hb h.basic) hout sw sl with ⟨f, hf1, hf2, hf3, hf4⟩ | ⟨hna, b, -, h1, h2⟩
  · rw [hf4]; simp
  rcases needed_old (lag := lag) hw hb h hch hkn hadd hend hn with ⟨f, hf1, hf2, hf3⟩ | ⟨hn', hs⟩
  · exact absurd hf3 (hna f (List.mem_append_right _ hf1) hf2)
  have hold := hp sl (hn'.mono (fun i hi => by simp only [Bool.and_eq_true] at hi; exact hi.1))
  obtain ⟨x, hx⟩ := Option.ne_none_iff_exists'.1 hold
  have hbx : b = some x := by
    refine h1 x hx ?_
    intro d hd
    rcases List.mem_append.1 hd with hd | hd
    · have hm := oldMsgs_mem hb hd
      rcases hm.cmd hb K with hc | ⟨hc, -⟩
      · cases hm with
        | port hp1 hp2 hp3 =>
          refine del_spares hb ?_ hc ((portDel_u (K := K) (md := true) hb hp1 hp3).2.2.1 hc) hn' (hf sl x hx)
          intro j hj
          cases hj
          rcases hp2 with hp2 | hp2 <;> simp [hp2]
        | update hv hm => exact del_spares hb (n := none) (fun j hj => by cases hj) hc ((updateVlan_u (K := K) hb _ hv hm).2.2.1 hc) hn' (hf sl x hx)
        | @vlan v hv hvd hm => exact delVlan_spares hb hm (hs _ (hw.vid v hv) (Or.inl hvd))
      · simp [FlowMod.kills, hc]
    · have hm := newMsgs_mem hb' hd
      rcases hm.cmd hb' K with hc | ⟨hc, -⟩
      · cases hm with
        | port hp1 hp2 =>
          exact del_spares hb (n := none) (fun j hj => by cases hj) hc (((portAdd_u (K := K) (n := none) (md := false) hb' hp1 hp2).2.2.1 hc).back h hb) hn' (hf sl x hx)
        | add hv hm =>
          exact del_spares hb (n := none) (fun j hj => by cases hj) hc (((addVlan_u (K := K) (n := none) hb' _ _ hv hm).2.2.1 hc).back h hb) hn' (hf sl x hx)
        | @vlan v hv hvd hm =>
          refine delVlan_spares hb' hm ?_
          obtain ⟨t1, t2, t3, t4⟩ := h.dp.tables hb hb'
          have := hs _ (h.wf.vid v hv) (Or.inr hvd)
          unfold Spared at this ⊢
          rw [t2, t4]; exact this
      · simp [FlowMod.kills, hc]
  rcases h2 with h2 | ⟨f, -, -, -, h2⟩ <;> rw [h2, hbx] <;> simp

end Faucet.L2
