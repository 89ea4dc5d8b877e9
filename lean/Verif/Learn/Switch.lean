import Verif.Learn.Sys

/-!
# Learning and the switch (C06 second part, C55)
-/

namespace Faucet.Learn
open Faucet.OF
open Faucet.HostCache (Port Entry Vlan Inv)
open Faucet.FlowReorder (Simple deletesFirst)

theorem slot_flowadd {t : Table} {items : List MatchItem} {prio : Nat} {inst : List Inst} {hard idle : Nat}
    {f : FlowMod} (h : OfMsg.flow f = t.flowadd items prio inst hard idle) :
    f.slot = ⟨t.id, prio, items⟩ ∧ f.inst = trimInst inst ∧ f.cmd = .add ∧ f.body = ⟨trimInst inst, t.cookie, hard, idle⟩ := by
  unfold Table.flowadd at h
  cases h
  exact ⟨rfl, rfl, rfl, rfl⟩

theorem flowdel_cmd {t : Table} {items : List MatchItem} {op : Option Nat} {f : FlowMod}
    (h : OfMsg.flow f = t.flowdel items 0 op) : f.cmd = .delete := by
  unfold Table.flowdel at h
  cases h; rfl

theorem deleteHost_cmd {cfg : Cfg} {m vid : Nat} {f : FlowMod} (h : .flow f ∈ deleteHost cfg m vid) :
    f.cmd = .delete := by
  simp only [deleteHost, List.mem_append, List.mem_cons, List.not_mem_nil, or_false] at h
  rcases h with (h | h) | h
  · exact flowdel_cmd h
  · exact flowdel_cmd h
  · split at h
    · simp only [List.mem_cons, List.not_mem_nil, or_false] at h; exact flowdel_cmd h
    · cases h

/-- The additions among the messages of a learn. -/
theorem delHostFlows_cmd {cfg : Cfg} {n : Nat} {f : FlowMod} (hf : .flow f ∈ delHostFlows cfg n) : f.cmd = .delete := by
  simp only [delHostFlows, List.mem_append, List.mem_cons, List.not_mem_nil, or_false] at hf
  rcases hf with (hf | hf) | hf
  · exact flowdel_cmd hf
  · exact flowdel_cmd hf
  · split at hf
    · simp only [List.mem_cons, List.not_mem_nil, or_false] at hf; exact flowdel_cmd hf
    · cases hf

theorem portDown_cmd {cfg : Cfg} {n : Nat} {f : FlowMod} (hf : .flow f ∈ portDown cfg n) : f.cmd = .delete := by
  unfold portDown at hf
  split at hf
  · cases hf
  · exact delHostFlows_cmd hf

theorem learn_adds {cfg : Cfg} {p : Port} {vid m : Nat} {del refresh : Bool} {tmo : Nat × Nat × Nat} {f : FlowMod}
    (h : .flow f ∈ learnFlows cfg p vid m del refresh tmo) (hc : f.cmd = .add) :
    (f.slot = srcSlot cfg p.number vid m ∧ f.inst = [.goto (outputTable cfg)]) ∨
    (f.slot = dstSlot cfg vid m ∧ f.inst = dstInst cfg p.number vid) ∨
    (f.slot = ⟨cfg.ethDst.id, matchPriority, dstItems m vid (some pcpNonExt)⟩ ∧ cfg.hasExternals = true) ∨
    (∃ t, cfg.hairpin = some t ∧ f.slot = hairpinSlot t p.number vid m) := by
  have := mem_learnFlows.1 h
  generalize hx : OfMsg.flow f = x at this
  cases this with
  | del _ _ hd => subst hx; rw [deleteHost_cmd hd] at hc; cases hc
  | src =>
    obtain ⟨h1, h2, _⟩ := slot_flowadd hx
    exact Or.inl ⟨h1, by rw [h2, trimInst_goto]⟩
  | dst _ =>
    obtain ⟨h1, h2, _⟩ := slot_flowadd hx
    exact Or.inr (Or.inl ⟨h1, by rw [h2, trimInst_dst]⟩)
  | dst2 he _ _ =>
    obtain ⟨h1, h2, _⟩ := slot_flowadd hx
    exact Or.inr (Or.inr (Or.inl ⟨h1, he⟩))
  | hairpin _ t ht =>
    obtain ⟨h1, h2, _⟩ := slot_flowadd hx
    exact Or.inr (Or.inr (Or.inr ⟨t, ht, h1⟩))

theorem dst2_ne {cfg : Cfg} (he : cfg.hasExternals = true) (m m' vid vid' : Nat) :
    dstItems m vid (some pcpNonExt) ≠ dstItems m' vid' (extFlag cfg) := by
  simp [dstItems, extFlag, he, iPcp, pcpNonExt, pcpExt]

/-- An addition of a learn in the slot of a destination rule is the learned host's. -/
theorem learn_dst {cfg : Cfg} (hw : cfg.WF) {p : Port} {vid m : Nat} {del refresh : Bool} {tmo : Nat × Nat × Nat}
    {f : FlowMod} (h : .flow f ∈ learnFlows cfg p vid m del refresh tmo) (hc : f.cmd = .add) {vid' m' : Nat}
    (hv : vid < 4096) (hv' : vid' < 4096) (hs : f.slot = dstSlot cfg vid' m') :
    vid' = vid ∧ m' = m ∧ f.inst = dstInst cfg p.number vid := by
  rcases learn_adds h hc with ⟨h1, _⟩ | ⟨h1, h2⟩ | ⟨h1, he⟩ | ⟨t, ht, h1⟩
  · rw [h1] at hs
    simp only [srcSlot, dstSlot, Slot.mk.injEq] at hs
    exact absurd hs.1 hw.srcDst
  · rw [h1] at hs
    simp only [dstSlot, Slot.mk.injEq] at hs
    obtain ⟨h3, h4⟩ := dstItems_inj hv hv' hs.2.2
    exact ⟨h4.symm, h3.symm, h2⟩
  · rw [h1] at hs
    simp only [dstSlot, Slot.mk.injEq] at hs
    exact absurd hs.2.2 (dst2_ne he m m' vid vid')
  · rw [h1] at hs
    simp only [hairpinSlot, dstSlot, Slot.mk.injEq] at hs
    exact absurd hs.1 (hw.hairpinOk t ht).2.2.1

/-- An addition of a learn in the slot of a source rule is the learned host's. -/
theorem learn_src {cfg : Cfg} (hw : cfg.WF) {p : Port} {vid m : Nat} {del refresh : Bool} {tmo : Nat × Nat × Nat}
    {f : FlowMod} (h : .flow f ∈ learnFlows cfg p vid m del refresh tmo) (hc : f.cmd = .add) {q vid' m' : Nat}
    (hv : vid < 4096) (hv' : vid' < 4096) (hs : f.slot = srcSlot cfg q vid' m') :
    vid' = vid ∧ m' = m ∧ q = p.number ∧ f.inst = [.goto (outputTable cfg)] := by
  rcases learn_adds h hc with ⟨h1, h2⟩ | ⟨h1, h2⟩ | ⟨h1, he⟩ | ⟨t, ht, h1⟩
  · rw [h1] at hs
    simp only [srcSlot, Slot.mk.injEq, iInPort, iEthSrc, iVlan, List.cons.injEq, MatchItem.mk.injEq] at hs
    obtain ⟨_, _, ⟨_, a, _⟩, ⟨_, b, _⟩, ⟨_, c, _⟩, _⟩ := hs
    exact ⟨(vidPresent_inj hv hv' c).symm, b.symm, a.symm, h2⟩
  · rw [h1] at hs
    simp only [srcSlot, dstSlot, Slot.mk.injEq] at hs
    exact absurd hs.1.symm hw.srcDst
  · rw [h1] at hs
    simp only [srcSlot, Slot.mk.injEq] at hs
    exact absurd hs.1.symm hw.srcDst
  · rw [h1] at hs
    simp only [hairpinSlot, srcSlot, Slot.mk.injEq] at hs
    exact absurd hs.1 (hw.hairpinOk t ht).2.1

theorem tempBan_slot {cfg : Cfg} {items : List MatchItem} {f : FlowMod} (h : OfMsg.flow f = tempBan cfg items) :
    f.slot = ⟨cfg.ethSrc.id, lowPriority + 1, items⟩ := (slot_flowadd h).1

theorem tempBan_not_dst {cfg : Cfg} (hw : cfg.WF) {items : List MatchItem} {f : FlowMod}
    (h : OfMsg.flow f = tempBan cfg items) (vid m : Nat) : f.slot ≠ dstSlot cfg vid m := by
  rw [tempBan_slot h]
  intro hs
  simp only [dstSlot, Slot.mk.injEq] at hs
  exact hw.srcDst hs.1

theorem tempBan_not_src {cfg : Cfg} {items : List MatchItem} {f : FlowMod}
    (h : OfMsg.flow f = tempBan cfg items) (q vid m : Nat) : f.slot ≠ srcSlot cfg q vid m := by
  rw [tempBan_slot h]
  intro hs
  simp [srcSlot, lowPriority, matchPriority] at hs

theorem perm_not_dst {cfg : Cfg} (hw : cfg.WF) {items : List MatchItem} {f : FlowMod}
    (h : OfMsg.flow f = cfg.classification.flowdrop items filterPriority) (vid m : Nat) : f.slot ≠ dstSlot cfg vid m := by
  rw [(slot_flowadd h).1]
  intro hs
  simp only [dstSlot, Slot.mk.injEq] at hs
  exact hw.classDst hs.1

theorem perm_not_src {cfg : Cfg} {items : List MatchItem} {f : FlowMod}
    (h : OfMsg.flow f = cfg.classification.flowdrop items filterPriority) (q vid m : Nat) : f.slot ≠ srcSlot cfg q vid m := by
  rw [(slot_flowadd h).1]
  intro hs
  simp [srcSlot, filterPriority, matchPriority] at hs

/-- The messages of every event other than a cold start form a simple batch. -/
theorem react_simple {cfg : Cfg} (hw : cfg.WF) {st : St} (hi : CInv cfg st) {ev : Ev} {msgs : List OfMsg} {st' : St}
    (h : react cfg st ev = some (msgs, st')) (hc : ∀ now, ev ≠ .coldStart now) :
    ∀ x ∈ msgs, Simple cfg.ethSrc.cookie x := by
  cases ev with
  | packet now n vid m =>
    obtain ⟨ms, s, h1, ho⟩ := rcv_outcome hw hi now n vid m
    have h : rcvPacket cfg st now (cfg.port n) vid m = some (msgs, st') := h
    rw [h] at h1; cases h1
    cases ho with
    | limit _ =>
      intro x hx
      obtain ⟨items, rfl⟩ := banRules_simple st _ vid m x hx
      exact tempBan_simple hw items
    | perm _ e he hp _ hm =>
      intro x hx
      rw [permCheck_mem hm x hx]
      exact simple_add hw.classReal hw.classCookie _ _ (by decide) _ _ _
    | fresh _ => simp
    | ban _ _ _ _ _ =>
      intro x hx
      simp only [List.mem_cons, List.not_mem_nil, or_false] at hx
      subst hx
      exact tempBan_simple hw _
    | learn _ _ _ _ v' _ del refresh hd => exact learnFlows_simple hw _ _ _ _ _ _
  | expire now vid =>
    obtain ⟨ex, s, h1, _⟩ := sweep_effect hi now vid
    have h : sweep cfg st now vid = some (msgs, st') := h
    rw [h] at h1; cases h1
    intro x hx
    split at hx
    · cases hx
    · obtain ⟨e, _, hx⟩ := List.mem_flatMap.1 hx
      exact deleteHost_simple hw _ _ x hx
  | portDelete n =>
    obtain ⟨s, h1, _⟩ := portDelete_effect hw hi n
    have h : portDelete cfg st n = some (msgs, st') := h
    rw [h] at h1; cases h1
    intro x hx
    split at hx
    · cases hx
    · exact delHostFlows_simple hw n x hx
  | portDown n =>
    cases h
    intro x hx
    unfold portDown at hx
    split at hx
    · cases hx
    · exact delHostFlows_simple hw n x hx
  | portUpdate now n => cases h; simp
  | coldStart now => exact absurd rfl (hc now)
  | flowGone s => cases h; simp
  | srcRemoved vid n m =>
    obtain ⟨s, h1, _⟩ := srcRemoved_effect hw hi vid n m
    rw [h] at h1; cases h1
    simp
  | dstRemoved now vid m =>
    simp only [react] at h
    split at h
    · simp only [Option.some.injEq] at h
      unfold dstRuleExpire at h
      cases he : HostCache.cachedHost (st.vlan vid).hosts m with
      | none => rw [he] at h; cases h; simp
      | some e =>
        rw [he] at h
        simp only [Prod.mk.injEq] at h
        obtain ⟨rfl, rfl⟩ := h
        unfold learnHostOnVlanPorts
        simp only
        rw [he]
        cases hp : permCheck cfg (some e) e.port m with
        | some ms =>
          intro x hx
          simp only at hx
          rw [permCheck_mem hp x hx]
          exact simple_add hw.classReal hw.classCookie _ _ (by decide) _ _ _
        | none =>
          simp only
          split
          · simp
          · split
            · intro x hx
              simp only [List.mem_cons, List.not_mem_nil, or_false] at hx
              subst hx
              exact tempBan_simple hw _
            · exact learnFlows_simple hw _ _ _ _ _ _
    · cases h; simp

/-! ## Destination rules follow the host table -/

/-- C55: destination rules of known hosts send to where the host is known. -/
def DstOk (cfg : Cfg) (s : Sys) : Prop :=
  ∀ vid m e b, vid < 4096 → host s.st vid m = some e → s.sw.flows (dstSlot cfg vid m) = some b →
    ∃ q, b.inst = dstInst cfg q vid ∧ SamePlace cfg q e.port.number

theorem dst_step {cfg : Cfg} (hw : cfg.WF) (hnl : ∀ n, (cfg.port n).loopProtect = false) {st : St} (hi : CInv cfg st)
    {ev : Ev} (hv : ev.vidOk) {msgs : List OfMsg} {st' : St} (h : react cfg st ev = some (msgs, st'))
    (vid' m' : Nat) (e' : Entry) (hvid : vid' < 4096) (he' : host st' vid' m' = some e') :
    (∀ f, .flow f ∈ msgs → f.cmd = .add → f.slot = dstSlot cfg vid' m' →
      ∃ q, f.inst = dstInst cfg q vid' ∧ SamePlace cfg q e'.port.number) ∧
    ((∃ f, .flow f ∈ msgs ∧ f.cmd = .add ∧ f.slot = dstSlot cfg vid' m') ∨
      ∃ e, host st vid' m' = some e ∧ SamePlace cfg e.port.number e'.port.number) := by
  have keep : (∀ f, .flow f ∈ msgs → f.cmd = .add → f.slot ≠ dstSlot cfg vid' m') →
      host st vid' m' = some e' → (∀ f, .flow f ∈ msgs → f.cmd = .add → f.slot = dstSlot cfg vid' m' →
      ∃ q, f.inst = dstInst cfg q vid' ∧ SamePlace cfg q e'.port.number) ∧
    ((∃ f, .flow f ∈ msgs ∧ f.cmd = .add ∧ f.slot = dstSlot cfg vid' m') ∨
      ∃ e, host st vid' m' = some e ∧ SamePlace cfg e.port.number e'.port.number) := by
    intro h1 h2
    exact ⟨fun f hf hc hs => absurd hs (h1 f hf hc), Or.inr ⟨e', h2, Or.inl rfl⟩⟩
  cases ev with
  | packet now n vid m =>
    obtain ⟨ms, s, h1, ho⟩ := rcv_outcome hw hi now n vid m
    have h : rcvPacket cfg st now (cfg.port n) vid m = some (msgs, st') := h
    rw [h] at h1; cases h1
    cases ho with
    | limit _ =>
      refine keep ?_ he'
      intro f hf _
      obtain ⟨items, hx⟩ := banRules_simple st _ vid m _ hf
      exact tempBan_not_dst hw hx _ _
    | perm _ e he hp _ hm =>
      refine keep ?_ he'
      intro f hf _
      exact perm_not_dst hw (permCheck_mem hm _ hf) _ _
    | fresh _ => exact keep (by simp) he'
    | ban _ _ _ hb => rw [LoopBanned, hnl] at hb; cases hb.1
    | learn _ _ _ _ v' hadd del refresh hd =>
      obtain ⟨_, _, hg, _⟩ := add_effect hw hi hadd
      rw [host_setVlan] at he'
      have hg' : HostCache.cachedHost v' m' = if m = m' then some ⟨m, cfg.port n, now⟩ else host st vid m' := hg m'
      by_cases hsame : vid' = vid ∧ m' = m
      · obtain ⟨rfl, rfl⟩ := hsame
        rw [if_pos rfl] at he'
        have he' : HostCache.cachedHost v' m' = some e' := he'
        rw [hg', if_pos rfl] at he'
        cases he'
        constructor
        · intro f hf hc hs
          obtain ⟨_, _, hin⟩ := learn_dst hw hf hc hv hvid hs
          exact ⟨_, hin, Or.inl rfl⟩
        · by_cases hr : refresh = false ∨ (cfg.port n).hairpin = true ∨ (cfg.port n).hairpinUnicast = true
          · left
            have := mem_learnFlows.2 (LearnMsg.dst (cfg := cfg) (p := cfg.port n) (vid := vid') (m := m')
              (del := del) (refresh := refresh) (tmo := learnHostTimeouts cfg (cfg.port n) m') hr)
            exact ⟨_, this, rfl, rfl⟩
          · right
            rcases cacheCheck_some hw hi hd with ⟨e, he, hsp, _⟩ | ⟨hrf, _⟩
            · refine ⟨e, he, ?_⟩
              show SamePlace cfg e.port.number (cfg.port n).number
              rw [hw.portNum]; exact hsp.symm
            · exact absurd (Or.inl hrf) hr
      · refine keep ?_ ?_
        · intro f hf hc hs
          obtain ⟨ha, hb, _⟩ := learn_dst hw hf hc hv hvid hs
          exact hsame ⟨ha, hb⟩
        · split at he'
          · rename_i hvv
            have he' : HostCache.cachedHost v' m' = some e' := he'
            rw [hg', if_neg (fun hm => hsame ⟨hvv, hm.symm⟩)] at he'
            rw [hvv]; exact he'
          · exact he'
  | expire now vid =>
    obtain ⟨ex, s, h1, _, hr, _⟩ := sweep_effect hi now vid
    have h : sweep cfg st now vid = some (msgs, st') := h
    rw [h] at h1; cases h1
    refine keep ?_ (hr.keep _ _ _ he')
    intro f hf hc
    split at hf
    · cases hf
    · obtain ⟨e, _, hx⟩ := List.mem_flatMap.1 hf
      rw [deleteHost_cmd hx] at hc; cases hc
  | portDelete n =>
    obtain ⟨s, h1, hr, _⟩ := portDelete_effect hw hi n
    have h : portDelete cfg st n = some (msgs, st') := h
    rw [h] at h1; cases h1
    refine keep ?_ (hr.keep _ _ _ he')
    intro f hf hc
    split at hf
    · cases hf
    · have hdel : f.cmd = .delete := by
        simp only [delHostFlows, List.mem_append, List.mem_cons, List.not_mem_nil, or_false] at hf
        rcases hf with (hf | hf) | hf
        · exact flowdel_cmd hf
        · exact flowdel_cmd hf
        · split at hf
          · simp only [List.mem_cons, List.not_mem_nil, or_false] at hf; exact flowdel_cmd hf
          · cases hf
      rw [hdel] at hc; cases hc
  | portDown n =>
    cases h
    refine keep ?_ he'
    intro f hf hc
    rw [portDown_cmd hf] at hc; cases hc
  | portUpdate now n => cases h; exact keep (by simp) he'
  | coldStart now =>
    cases h
    simp [host, coldStart, HostCache.resetCaches, HostCache.cachedHost] at he'
  | flowGone s => cases h; exact keep (by simp) he'
  | srcRemoved vid n m =>
    obtain ⟨s, h1, hr, _⟩ := srcRemoved_effect hw hi vid n m
    rw [h] at h1; cases h1
    exact keep (by simp) (hr.keep _ _ _ he')
  | dstRemoved now vid m =>
    obtain ⟨ms, s, h1, hvl, _⟩ := dstRemoved_effect (cfg := cfg) (st := st) now vid m
    rw [h] at h1; cases h1
    have he0 : host st vid' m' = some e' := by
      unfold host at he' ⊢; rw [← hvl]; exact he'
    refine ⟨?_, Or.inr ⟨e', he0, Or.inl rfl⟩⟩
    intro f hf hc hs
    simp only [react] at h
    split at h
    · simp only [Option.some.injEq] at h
      unfold dstRuleExpire at h
      cases he : HostCache.cachedHost (st.vlan vid).hosts m with
      | none => rw [he] at h; cases h; cases hf
      | some e =>
        rw [he] at h
        simp only [Prod.mk.injEq] at h
        obtain ⟨rfl, rfl⟩ := h
        unfold learnHostOnVlanPorts at hf
        simp only at hf
        rw [he] at hf
        cases hp : permCheck cfg (some e) e.port m with
        | some ms =>
          rw [hp] at hf
          exact absurd hs (perm_not_dst hw (permCheck_mem hp _ hf) _ _)
        | none =>
          rw [hp] at hf
          simp only at hf
          split at hf
          · cases hf
          · split at hf
            · simp only [List.mem_cons, List.not_mem_nil, or_false] at hf
              exact absurd hs (tempBan_not_dst hw hf _ _)
            · obtain ⟨ha, hb, hin⟩ := learn_dst hw hf hc hv hvid hs
              subst ha; subst hb
              have : host st vid' m' = some e := he
              rw [he0] at this; cases this
              exact ⟨_, hin, Or.inl rfl⟩
    · cases h; cases hf

theorem switchEnv_flows {sw : Switch} {ev : Ev} {s : Slot} {b : Body} (h : (switchEnv sw ev).flows s = some b) :
    sw.flows s = some b := by
  cases ev <;> try exact h
  simp only [switchEnv] at h
  split at h
  · cases h
  · exact h

/-- The switch after a cold start has no rules. -/
theorem coldStart_send {sh : List OfMsg → List OfMsg} (hsh : ∀ l, (sh l).Perm l) (bar : Bool) :
    ∃ out, FlowReorder.reorder sh bar [(⟨tableAll, 0⟩ : Table).flowdel []] = some out ∧
      ∀ (sw : Switch) s, (sw.execAll out).flows s = none := by
  obtain ⟨out, ho⟩ := FlowReorder.reorder_total sh bar [(⟨tableAll, 0⟩ : Table).flowdel []] (by
    intro m hm _
    simp only [List.mem_cons, List.not_mem_nil, or_false] at hm
    exact ⟨_, hm⟩)
  refine ⟨out, ho, ?_⟩
  intro sw s
  rw [FlowReorder.reorder_preserves_switch_partial sh hsh bar _ out ho]
  · have : deletesFirst [(⟨tableAll, 0⟩ : Table).flowdel []] = [(⟨tableAll, 0⟩ : Table).flowdel []] := by decide
    rw [this]
    show OfMsg.onFlow ((⟨tableAll, 0⟩ : Table).flowdel []) s (sw.flows s) = none
    cases sw.flows s with
    | none => simp [OfMsg.onFlow, Table.flowdel]
    | some b => simp [OfMsg.onFlow, Table.flowdel, FlowMod.kills, FlowMod.tableOk, coversItems, FlowMod.outPortOk]
  · intro f hf _ _
    simp only [List.mem_cons, List.not_mem_nil, or_false, Table.flowdel] at hf
    cases hf; exact ⟨rfl, rfl⟩
  · intro f g hf _ hfa
    simp only [List.mem_cons, List.not_mem_nil, or_false, Table.flowdel] at hf
    cases hf; simp [FlowReorder.isFlowAdd] at hfa
  · intro d a hd ha hdd haa
    simp only [List.mem_cons, List.not_mem_nil, or_false, Table.flowdel] at ha
    cases ha; simp [FlowReorder.isFlowAdd] at haa

/-- Every event is handled, and the switch gets the messages. -/
theorem sysStep_total {cfg : Cfg} (hw : cfg.WF) {sh : List OfMsg → List OfMsg} (hsh : ∀ l, (sh l).Perm l) (bar : Bool)
    {s : Sys} (hi : CInv cfg s.st) (ev : Ev) :
    ∃ s', sysStep cfg sh bar s ev = some s' ∧ CInv cfg s'.st := by
  obtain ⟨msgs, st', h1, h2⟩ := react_cinv hw hi ev
  by_cases hc : ∃ now, ev = .coldStart now
  · obtain ⟨now, rfl⟩ := hc
    obtain ⟨out, h3, _⟩ := coldStart_send hsh bar
    cases h1
    exact ⟨⟨coldStart s.st now, (switchEnv s.sw (.coldStart now)).execAll out⟩,
      by simp only [sysStep, react, Option.bind_eq_bind, Option.bind_some, h3], h2⟩
  · obtain ⟨out, h3, _⟩ := send (cfg := cfg) hsh bar (react_simple hw hi h1 (fun now h => hc ⟨now, h⟩))
    exact ⟨⟨st', (switchEnv s.sw ev).execAll out⟩, by simp only [sysStep, h1, Option.bind_eq_bind, Option.bind_some, h3], h2⟩

theorem dstOk_step {cfg : Cfg} (hw : cfg.WF) (hnl : ∀ n, (cfg.port n).loopProtect = false)
    {sh : List OfMsg → List OfMsg} (hsh : ∀ l, (sh l).Perm l) (bar : Bool) {s s' : Sys} (hi : CInv cfg s.st)
    (hd : DstOk cfg s) {ev : Ev} (hv : ev.vidOk) (h : sysStep cfg sh bar s ev = some s') :
    CInv cfg s'.st ∧ DstOk cfg s' := by
  obtain ⟨msgs, st', h1, h2⟩ := react_cinv hw hi ev
  simp only [sysStep, h1, Option.bind_eq_bind, Option.bind_some] at h
  cases ho : FlowReorder.reorder sh bar msgs with
  | none => rw [ho] at h; cases h
  | some out =>
    rw [ho] at h
    simp only [Option.bind_some, Option.some.injEq] at h
    subst h
    refine ⟨h2, ?_⟩
    intro vid m e b hvid he hb
    have hc : ∀ now, ev ≠ .coldStart now := by
      rintro now rfl
      cases h1
      simp [host, coldStart, HostCache.resetCaches, HostCache.cachedHost] at he
    obtain ⟨out', h3, h4⟩ := send (cfg := cfg) hsh bar (react_simple hw hi h1 hc)
    rw [ho] at h3; cases h3
    obtain ⟨h5, h6⟩ := dst_step hw hnl hi hv h1 vid m e hvid he
    rcases (h4 (switchEnv s.sw ev)).1 _ b hb with ⟨f, hf, hfc, hfs, hfb⟩ | ⟨hold, _, hno⟩
    · obtain ⟨q, hq, hsp⟩ := h5 f hf hfc hfs
      exact ⟨q, by rw [← hfb]; exact hq, hsp⟩
    · rcases h6 with ⟨f, hf, hfc, hfs⟩ | ⟨e0, he0, hsp⟩
      · exact absurd hfs (hno f hf hfc)
      · obtain ⟨q, hq, hsp'⟩ := hd vid m e0 b hvid he0 (switchEnv_flows hold)
        exact ⟨q, hq, hsp'.trans hsp⟩

theorem sysRun_ind {cfg : Cfg} {sh : List OfMsg → List OfMsg} {bar : Bool} (P : Sys → Prop) (Q : Ev → Prop)
    (hstep : ∀ s s' ev, P s → Q ev → sysStep cfg sh bar s ev = some s' → P s') (evs : List Ev) :
    ∀ s s', P s → (∀ ev ∈ evs, Q ev) → sysRun cfg sh bar s evs = some s' → P s' := by
  induction evs with
  | nil => intro s s' hp _ h; cases h; exact hp
  | cons ev evs ih =>
    intro s s' hp hq h
    simp only [sysRun] at h
    cases h1 : sysStep cfg sh bar s ev with
    | none => rw [h1] at h; cases h
    | some s1 =>
      rw [h1] at h
      simp only [Option.bind_eq_bind, Option.bind_some] at h
      exact ih s1 s' (hstep s s1 ev hp (hq ev (by simp)) h1) (fun ev he => hq ev (List.mem_cons_of_mem _ he)) h

/-- C55, destinations. Over any history of packets, expiry, port and switch events, whatever order messages
are shuffled into: no exception is raised, and if the controller knows a host and the switch has a rule for
traffic to it, that rule outputs to the port (or LAG) where the controller knows it. Needs loop protection
to be off: see `loop_protect_stale_defect`. -/
theorem dst_rules_follow_hosts_partial (cfg : Cfg) (hw : cfg.WF) (hnl : ∀ n, (cfg.port n).loopProtect = false)
    (sh : List OfMsg → List OfMsg) (hsh : ∀ l, (sh l).Perm l) (bar : Bool) (evs : List Ev) (hv : ∀ ev ∈ evs, ev.vidOk) :
    ∃ s, sysRun cfg sh bar Sys.init evs = some s ∧
      ∀ vid m e b, vid < 4096 → host s.st vid m = some e → s.sw.flows (dstSlot cfg vid m) = some b →
        ∃ q, b.inst = dstInst cfg q vid ∧ SamePlace cfg q e.port.number := by
  have htot : ∀ (evs : List Ev) s, CInv cfg s.st → ∃ s', sysRun cfg sh bar s evs = some s' := by
    intro evs
    induction evs with
    | nil => intro s _; exact ⟨s, rfl⟩
    | cons ev evs ih =>
      intro s hi
      obtain ⟨s1, h1, h2⟩ := sysStep_total hw hsh bar hi ev
      obtain ⟨s2, h3⟩ := ih s1 h2
      exact ⟨s2, by simp [sysRun, h1, h3]⟩
  obtain ⟨s, hs⟩ := htot evs Sys.init (cinv_init cfg)
  refine ⟨s, hs, ?_⟩
  have := sysRun_ind (fun s => CInv cfg s.st ∧ DstOk cfg s) Ev.vidOk
    (fun s s' ev hp hq h => dstOk_step hw hnl hsh bar hp.1 hp.2 hq h) evs Sys.init s
    ⟨cinv_init cfg, by intro vid m e b _ he; simp [Sys.init, host, St.init, HostCache.cachedHost] at he⟩ hv hs
  exact this.2

/-- A host behind port 1, then moved to port 2; the rule follows. -/
def exCfgPlain : Cfg := { exCfg with port := fun n => { exCfg.port n with loopProtect := false } }

example : exCfgPlain.WF ∧ (∀ n, (exCfgPlain.port n).loopProtect = false) ∧
    ((sysRun exCfgPlain id true Sys.init [.coldStart 1, .portUpdate 1 1, .packet 2 1 100 5, .packet 3 2 100 5]).map
      (fun s => (host s.st 100 5).map (·.port.number))) = some (some 2) ∧
    ((sysRun exCfgPlain id true Sys.init [.coldStart 1, .portUpdate 1 1, .packet 2 1 100 5, .packet 3 2 100 5]).map
      (fun s => (s.sw.flows (dstSlot exCfgPlain 100 5)).map (·.inst))) = some (some (dstInst exCfgPlain 2 100)) := by
  refine ⟨?_, fun _ => rfl, by decide, by decide⟩
  constructor
  · intro n; rfl
  all_goals first
    | decide
    | (intro t h; cases h; decide)

/-- C55 is false with loop protection. Host 5 is on port 1; a packet from it appears on port 4 (loop protected)
within the guard time: the ban leaves the rules alone but moves the host in the host table. When the host
really is on port 4 afterwards (and the port has been up all along), each later packet only refreshes its
source rule: the switch keeps sending traffic for the host to port 1 for as long as that rule is used. -/
theorem loop_protect_stale_defect :
    ((sysRun exCfg id true Sys.init [.coldStart 1, .portUpdate 1 1, .portUpdate 1 4, .packet 2 1 100 5, .packet 3 4 100 5,
        .packet 1000 4 100 5, .packet 2000 4 100 5]).map
      (fun s => ((host s.st 100 5).map (·.port.number), (s.sw.flows (dstSlot exCfg 100 5)).map (·.inst)))) =
      some (some 4, some (dstInst exCfg 1 100)) ∧ dstInst exCfg 1 100 ≠ dstInst exCfg 4 100 := by decide

/-- C05 over histories: a destination rule that timed out (no traffic to the host) is not restored while the host
keeps sending, because the controller only refreshes the source rule: traffic to the host is flooded. -/
theorem refresh_without_dst_defect :
    ((sysRun exCfg id true Sys.init [.coldStart 1, .portUpdate 1 1, .packet 2 1 100 5, .flowGone (dstSlot exCfg 100 5),
        .packet 300 1 100 5, .packet 600 1 100 5]).map
      (fun s => ((s.sw.flows (srcSlot exCfg 1 100 5)).isSome, (s.sw.flows (dstSlot exCfg 100 5)).isSome))) =
      some (true, false) := by decide

/-! ## A move leaves nothing behind -/

/-- C06, switch. When a known host is accepted on another port (not a member of the same LAG), then, whatever
state the switch was in: its source rule is on the new port and no other, its destination rule outputs to
the new port, and no rule hairpins traffic for it on another port. -/
theorem move_cleans_switch (cfg : Cfg) (hw : cfg.WF) (sh : List OfMsg → List OfMsg) (hsh : ∀ l, (sh l).Perm l)
    (bar : Bool) (past : List Ev) (s : Sys) (hs : sysRun cfg sh bar Sys.init past = some s)
    (now : Int) (n vid m : Nat) (hv : vid < 4096) (e : Entry) (he : host s.st vid m = some e)
    (hmove : ¬ SamePlace cfg n e.port.number) (hperm : e.port.permanentLearn = false)
    (hban : ¬ LoopBanned cfg s.st now n vid m) :
    ∃ s', sysStep cfg sh bar s (.packet now n vid m) = some s' ∧
      (∃ b, s'.sw.flows (srcSlot cfg n vid m) = some b ∧ b.inst = [.goto (outputTable cfg)]) ∧
      (∃ b, s'.sw.flows (dstSlot cfg vid m) = some b ∧ b.inst = dstInst cfg n vid) ∧
      (∀ q, q ≠ n → s'.sw.flows (srcSlot cfg q vid m) = none) ∧
      (∀ t q, cfg.hairpin = some t → q ≠ n → s'.sw.flows (hairpinSlot t q vid m) = none) := by
  have hi : CInv cfg s.st := by
    refine sysRun_ind (fun s => CInv cfg s.st) (fun _ => True) ?_ past Sys.init s (cinv_init cfg) (fun _ _ => trivial) hs
    intro s s' ev hp _ h
    obtain ⟨s1, h1, h2⟩ := sysStep_total hw hsh bar hp ev
    rw [h] at h1; cases h1; exact h2
  obtain ⟨msgs, st', h1, ho⟩ := rcv_outcome hw hi now n vid m
  cases ho with
  | limit h => rw [LimitReached, he] at h; cases h.1
  | perm _ e' he' hp => rw [he] at he'; cases he'; rw [hperm] at hp; cases hp
  | fresh _ _ hf =>
    obtain ⟨e', t, he', hc, _⟩ := hf
    rw [he] at he'; cases he'
    have hep := hi.port vid m e he
    exfalso
    apply hmove
    rcases hc with ⟨a, b, _⟩ | ⟨_, b, _⟩
    · right; rw [← hep]; exact ⟨a, b⟩
    · left; exact b.symm
  | ban _ _ _ hb => exact absurd hb hban
  | learn hl hp hf hb v' hadd del refresh hd =>
    have hdel : del = true ∧ refresh = false := by
      rcases cacheCheck_some hw hi hd with ⟨e', he', hsp, _⟩ | ⟨hr, hdd, _⟩
      · rw [he] at he'; cases he'; exact absurd hsp hmove
      · refine ⟨?_, hr⟩
        rw [hdd, initialDelete, he]; rfl
    obtain ⟨rfl, rfl⟩ := hdel
    obtain ⟨out, h3, h4⟩ := send (cfg := cfg) hsh bar
      (learnFlows_simple hw (cfg.port n) vid m true false (learnHostTimeouts cfg (cfg.port n) m))
    refine ⟨⟨_, s.sw.execAll out⟩, by
      simp only [sysStep, react, h1, Option.bind_eq_bind, Option.bind_some, h3]; rfl, ?_, ?_, ?_, ?_⟩
    · have hin := mem_learnFlows.2 (LearnMsg.src (cfg := cfg) (p := cfg.port n) (vid := vid) (m := m)
        (del := true) (refresh := false) (tmo := learnHostTimeouts cfg (cfg.port n) m))
      obtain ⟨g, hg, hgc, hgs, hgb⟩ := (h4 s.sw).2 _ hin rfl
      have hsl : g.slot = srcSlot cfg n vid m := by
        rw [hgs]; show Slot.mk _ _ _ = _; rw [hw.portNum]; rfl
      obtain ⟨_, _, _, hgi⟩ := learn_src hw hg hgc hv hv hsl
      refine ⟨g.body, ?_, hgi⟩
      rw [← hsl, hgs]; exact hgb
    · have hin := mem_learnFlows.2 (LearnMsg.dst (cfg := cfg) (p := cfg.port n) (vid := vid) (m := m)
        (del := true) (refresh := false) (tmo := learnHostTimeouts cfg (cfg.port n) m) (Or.inl rfl))
      obtain ⟨g, hg, hgc, hgs, hgb⟩ := (h4 s.sw).2 _ hin rfl
      obtain ⟨_, _, hgi⟩ := learn_dst hw hg hgc hv hv hgs
      rw [hw.portNum] at hgi
      exact ⟨g.body, hgb, hgi⟩
    · intro q hq
      cases hx : (s.sw.execAll out).flows (srcSlot cfg q vid m) with
      | none => rfl
      | some b =>
        exfalso
        rcases (h4 s.sw).1 _ b hx with ⟨f, hf, hfc, hfs, _⟩ | ⟨_, hk, _⟩
        · obtain ⟨_, _, hqn, _⟩ := learn_src hw hf hfc hv hv hfs
          rw [hw.portNum] at hqn; exact hq hqn
        · have hin : cfg.ethSrc.flowdel [iEthSrc m, iVlan vid] ∈
              learnFlows cfg (cfg.port n) vid m true false (learnHostTimeouts cfg (cfg.port n) m) :=
            mem_learnFlows.2 (.del rfl _ (by simp [deleteHost]))
          have := hk _ hin rfl
          simp [FlowMod.kills, FlowMod.tableOk, srcSlot, coversItems, FlowMod.outPortOk, covers_self, iEthSrc, iVlan] at this
    · intro t q ht hq
      cases hx : (s.sw.execAll out).flows (hairpinSlot t q vid m) with
      | none => rfl
      | some b =>
        exfalso
        obtain ⟨w1, w2, w3, w4, w5⟩ := hw.hairpinOk t ht
        rcases (h4 s.sw).1 _ b hx with ⟨f, hf, hfc, hfs, _⟩ | ⟨_, hk, _⟩
        · rcases learn_adds hf hfc with ⟨h5, _⟩ | ⟨h5, _⟩ | ⟨h5, _⟩ | ⟨t', ht', h5⟩
          · rw [h5] at hfs; simp only [srcSlot, hairpinSlot, Slot.mk.injEq] at hfs; exact w2 hfs.1.symm
          · rw [h5] at hfs; simp only [dstSlot, hairpinSlot, Slot.mk.injEq] at hfs; exact w3 hfs.1.symm
          · rw [h5] at hfs; simp only [hairpinSlot, Slot.mk.injEq] at hfs; exact w3 hfs.1.symm
          · rw [h5] at hfs
            simp only [hairpinSlot, Slot.mk.injEq, iInPort, List.cons.injEq, MatchItem.mk.injEq] at hfs
            have := hfs.2.2.1.2.1
            rw [hw.portNum] at this
            exact hq this.symm
        · have hin : t.flowdel [iEthDst m, iVlan vid] ∈
              learnFlows cfg (cfg.port n) vid m true false (learnHostTimeouts cfg (cfg.port n) m) :=
            mem_learnFlows.2 (.del rfl _ (by simp [deleteHost, ht]))
          have := hk _ hin rfl
          simp [FlowMod.kills, FlowMod.tableOk, hairpinSlot, coversItems, FlowMod.outPortOk, covers_self, iEthDst, iVlan] at this

/-- Host 5 is on port 2, a hairpin port, and moves to port 1. -/
example : ((sysRun exCfg id true Sys.init [.coldStart 1, .portUpdate 1 1, .packet 2 2 100 5]).map
    (fun s => ((host s.st 100 5).map (fun e => (e.port.number, e.port.permanentLearn)),
      (s.sw.flows (srcSlot exCfg 2 100 5)).isSome, (s.sw.flows (hairpinSlot ⟨2, 7⟩ 2 100 5)).isSome))) =
      some (some (2, false), true, true) ∧ ¬ SamePlace exCfg 1 2 ∧ (exCfg.port 1).loopProtect = false := by
  refine ⟨by decide, ?_, rfl⟩
  unfold SamePlace; decide

/-- C06, switch. Any accepted packet leaves the host's source rule on the packet's port, whatever state the switch
was in. Its destination rule is (re)installed to output to that port whenever the host is new, or moved, or
the port changed status since the host was last seen. -/
theorem accepted_installs_rules (cfg : Cfg) (hw : cfg.WF) (sh : List OfMsg → List OfMsg) (hsh : ∀ l, (sh l).Perm l)
    (bar : Bool) (past : List Ev) (s : Sys) (hs : sysRun cfg sh bar Sys.init past = some s)
    (now : Int) (n vid m : Nat) (hv : vid < 4096)
    (hacc : ¬ (LimitReached cfg s.st n vid m ∨ Permanent s.st vid m ∨ Fresh cfg s.st now n vid m ∨
      LoopBanned cfg s.st now n vid m)) :
    ∃ s', sysStep cfg sh bar s (.packet now n vid m) = some s' ∧
      (∃ b, s'.sw.flows (srcSlot cfg n vid m) = some b ∧ b.inst = [.goto (outputTable cfg)]) ∧
      ((∀ e, host s.st vid m = some e → SamePlace cfg n e.port.number →
          ∀ t, (s.st.port n).updateTime = some t → e.cacheTime < t) →
        ∃ b, s'.sw.flows (dstSlot cfg vid m) = some b ∧ b.inst = dstInst cfg n vid) := by
  have hi : CInv cfg s.st := by
    refine sysRun_ind (fun s => CInv cfg s.st) (fun _ => True) ?_ past Sys.init s (cinv_init cfg) (fun _ _ => trivial) hs
    intro s s' ev hp _ h
    obtain ⟨s1, h1, h2⟩ := sysStep_total hw hsh bar hp ev
    rw [h] at h1; cases h1; exact h2
  obtain ⟨msgs, st', h1, ho⟩ := rcv_outcome hw hi now n vid m
  cases ho with
  | limit h => exact absurd (Or.inl h) hacc
  | perm _ e' he' hp => exact absurd (Or.inr (Or.inl ⟨e', he', hp⟩)) hacc
  | fresh _ _ hf => exact absurd (Or.inr (Or.inr (Or.inl hf))) hacc
  | ban _ _ _ hb => exact absurd (Or.inr (Or.inr (Or.inr hb))) hacc
  | learn hl hp hf hb v' hadd del refresh hd =>
    obtain ⟨out, h3, h4⟩ := send (cfg := cfg) hsh bar
      (learnFlows_simple hw (cfg.port n) vid m del refresh (learnHostTimeouts cfg (cfg.port n) m))
    refine ⟨⟨_, s.sw.execAll out⟩, by
      simp only [sysStep, react, h1, Option.bind_eq_bind, Option.bind_some, h3]; rfl, ?_, ?_⟩
    · have hin := mem_learnFlows.2 (LearnMsg.src (cfg := cfg) (p := cfg.port n) (vid := vid) (m := m)
        (del := del) (refresh := refresh) (tmo := learnHostTimeouts cfg (cfg.port n) m))
      obtain ⟨g, hg, hgc, hgs, hgb⟩ := (h4 s.sw).2 _ hin rfl
      have hsl : g.slot = srcSlot cfg n vid m := by
        rw [hgs]; show Slot.mk _ _ _ = _; rw [hw.portNum]; rfl
      obtain ⟨_, _, _, hgi⟩ := learn_src hw hg hgc hv hv hsl
      refine ⟨g.body, ?_, hgi⟩
      rw [← hsl, hgs]; exact hgb
    · intro hnew
      have hr : refresh = false := by
        rcases cacheCheck_some hw hi hd with ⟨e, he, hsp, _⟩ | ⟨hr, _⟩
        · have hinv : portCacheValid s.st (cfg.port n) e = false := by
            unfold portCacheValid
            rw [hw.portNum]
            cases hu : (s.st.port n).updateTime with
            | none => rfl
            | some t =>
              have := hnew e he hsp t hu
              simp only [decide_eq_false_iff_not]; omega
          unfold cacheCheck at hd
          rw [he] at hd
          have hep := hi.port vid m e he
          have hc : e.port.number = (cfg.port n).number ∨ sameLag (cfg.port n) e.port = true := by
            rcases hsp with hsp | hsp
            · left; rw [hw.portNum, hsp]
            · right; rw [hep]; simp [sameLag, hsp]; exact hsp.2 ▸ hsp.1
          simp only [if_pos hc, hinv] at hd
          have hd' : del = false ∧ refresh = false := by simpa using hd
          exact hd'.2
        · exact hr
      have hin := mem_learnFlows.2 (LearnMsg.dst (cfg := cfg) (p := cfg.port n) (vid := vid) (m := m)
        (del := del) (refresh := refresh) (tmo := learnHostTimeouts cfg (cfg.port n) m) (Or.inl hr))
      obtain ⟨g, hg, hgc, hgs, hgb⟩ := (h4 s.sw).2 _ hin rfl
      obtain ⟨_, _, hgi⟩ := learn_dst hw hg hgc hv hv hgs
      rw [hw.portNum] at hgi
      exact ⟨g.body, hgb, hgi⟩

/-- A host whose rules are lost when its port bounces gets them back. -/
example : ((sysRun exCfg id true Sys.init [.coldStart 1, .portUpdate 1 1, .packet 2 1 100 5, .portUpdate 3 1,
      .flowGone (dstSlot exCfg 100 5), .packet 4 1 100 5]).map
    (fun s => (s.sw.flows (dstSlot exCfg 100 5)).map (·.inst))) = some (some (dstInst exCfg 1 100)) := by decide

/-! ## Source rules follow the host table -/

/-- C55, sources: a source rule is for a host the controller knows there (on the port or in its LAG); or the controller does not know the host
at all and will delete its rules when it learns it. -/
def SrcOk (cfg : Cfg) (s : Sys) : Prop :=
  ∀ q vid m b, vid < 4096 → s.sw.flows (srcSlot cfg q vid m) = some b →
    (∃ e, host s.st vid m = some e ∧ SamePlace cfg e.port.number q) ∨
    (host s.st vid m = none ∧ noneExpired (s.st.vlan vid).lastExpired s.st.coldstart = false)

theorem noneExpired_of_le {a : Int} {c : Option Int} (h : ∀ t, c = some t → t ≤ a) : noneExpired (some a) c = false := by
  unfold noneExpired
  cases c with
  | none => rfl
  | some t =>
    have := h t rfl
    simp only [Bool.and_eq_false_imp, decide_eq_false_iff_not]
    intro _; omega

/-- One step of the source invariant; `T` is the latest time seen. -/
theorem srcOk_step {cfg : Cfg} (hw : cfg.WF) (hnl : ∀ n, (cfg.port n).loopProtect = false)
    (hfr : cfg.flowRemoved = false)
    {sh : List OfMsg → List OfMsg} (hsh : ∀ l, (sh l).Perm l) (bar : Bool) {s s' : Sys} (hi : CInv cfg s.st)
    (hd : SrcOk cfg s) {ev : Ev} (hv : ev.vidOk) (hcold : ∀ t t', s.st.coldstart = some t → ev.time? = some t' → t ≤ t')
    (h : sysStep cfg sh bar s ev = some s') :
    CInv cfg s'.st ∧ SrcOk cfg s' ∧
      (s'.st.coldstart = s.st.coldstart ∨ (s'.st.coldstart = ev.time? ∧ ∃ now, ev = .coldStart now)) := by
  obtain ⟨msgs, st', h1, h2⟩ := react_cinv hw hi ev
  simp only [sysStep, h1, Option.bind_eq_bind, Option.bind_some] at h
  cases ho : FlowReorder.reorder sh bar msgs with
  | none => rw [ho] at h; cases h
  | some out =>
    rw [ho] at h
    simp only [Option.bind_some, Option.some.injEq] at h
    subst h
    refine ⟨h2, ?_⟩
    by_cases hc : ∃ now, ev = .coldStart now
    · obtain ⟨now, rfl⟩ := hc
      cases h1
      obtain ⟨out', h3, h4⟩ := coldStart_send hsh bar
      rw [ho] at h3; cases h3
      refine ⟨?_, Or.inr ⟨rfl, now, rfl⟩⟩
      intro q vid m b _ hb
      have hb : ((switchEnv s.sw (.coldStart now)).execAll out).flows (srcSlot cfg q vid m) = some b := hb
      rw [h4] at hb; cases hb
    obtain ⟨out', h3, h4⟩ := send (cfg := cfg) hsh bar (react_simple hw hi h1 (fun now h => hc ⟨now, h⟩))
    rw [ho] at h3; cases h3
    -- a rule that stays although no host changed
    have stay : (∀ f, .flow f ∈ msgs → f.cmd = .add → ∀ q vid m, f.slot ≠ srcSlot cfg q vid m) →
        (∀ q vid m b, vid < 4096 → s.sw.flows (srcSlot cfg q vid m) = some b →
          (∀ f, .flow f ∈ msgs → f.cmd = .delete → f.kills (srcSlot cfg q vid m) b = false) →
          (∃ e, host st' vid m = some e ∧ SamePlace cfg e.port.number q) ∨
          (host st' vid m = none ∧ noneExpired (st'.vlan vid).lastExpired st'.coldstart = false)) →
        SrcOk cfg ⟨st', (switchEnv s.sw ev).execAll out⟩ := by
      intro hadd hold q vid m b hvid hb
      rcases (h4 (switchEnv s.sw ev)).1 _ b hb with ⟨f, hf, hfc, hfs, _⟩ | ⟨hb0, hk, _⟩
      · exact absurd hfs (hadd f hf hfc q vid m)
      · exact hold q vid m b hvid (switchEnv_flows hb0) hk
    have same : (∀ f, .flow f ∈ msgs → f.cmd = .add → ∀ q vid m, f.slot ≠ srcSlot cfg q vid m) →
        st'.vlan = s.st.vlan → st'.coldstart = s.st.coldstart →
        SrcOk cfg ⟨st', (switchEnv s.sw ev).execAll out⟩ := by
      intro hadd hvl hcs
      refine stay hadd ?_
      intro q vid m b hvid hb _
      have := hd q vid m b hvid hb
      unfold host at this ⊢
      rw [hvl, hcs]; exact this
    cases ev with
    | packet now n vid0 m0 =>
      obtain ⟨ms, s0, h1', hout⟩ := rcv_outcome hw hi now n vid0 m0
      have h1 : rcvPacket cfg s.st now (cfg.port n) vid0 m0 = some (msgs, st') := h1
      rw [h1] at h1'; cases h1'
      cases hout with
      | limit _ =>
        refine ⟨same ?_ rfl rfl, Or.inl rfl⟩
        intro f hf _ q vid m
        obtain ⟨items, hx⟩ := banRules_simple s.st _ vid0 m0 _ hf
        exact tempBan_not_src hx _ _ _
      | perm _ e he hp _ hm =>
        refine ⟨same ?_ rfl rfl, Or.inl rfl⟩
        intro f hf _ q vid m
        exact perm_not_src (permCheck_mem hm _ hf) _ _ _
      | fresh _ => exact ⟨same (by simp) rfl rfl, Or.inl rfl⟩
      | ban _ _ _ hb => rw [LoopBanned, hnl] at hb; cases hb.1
      | learn _ _ _ _ v' hadd del refresh hdd =>
        refine ⟨?_, Or.inl rfl⟩
        obtain ⟨_, _, hg, _⟩ := add_effect hw hi hadd
        intro q vid m b hvid hb
        have hg' : ∀ x, HostCache.cachedHost v' x = if m0 = x then some ⟨m0, cfg.port n, now⟩ else host s.st vid0 x := hg
        by_cases hsame : vid = vid0 ∧ m = m0
        · obtain ⟨rfl, rfl⟩ := hsame
          left
          refine ⟨⟨m, cfg.port n, now⟩, ?_, ?_⟩
          · rw [host_setVlan, if_pos rfl]
            show HostCache.cachedHost v' m = _
            rw [hg', if_pos rfl]
          · show SamePlace cfg (cfg.port n).number q
            rw [hw.portNum]
            rcases (h4 (switchEnv s.sw (.packet now n vid m))).1 _ b hb with ⟨f, hf, hfc, hfs, _⟩ | ⟨hb0, hk, _⟩
            · obtain ⟨_, _, hq, _⟩ := learn_src hw hf hfc hv hvid hfs
              rw [hq, hw.portNum]
              exact Or.inl rfl
            · have hdelf : del = true → False := by
                rintro rfl
                have hin : cfg.ethSrc.flowdel [iEthSrc m, iVlan vid] ∈
                    learnFlows cfg (cfg.port n) vid m true refresh (learnHostTimeouts cfg (cfg.port n) m) :=
                  mem_learnFlows.2 (.del rfl _ (by simp [deleteHost]))
                have := hk _ hin rfl
                simp [FlowMod.kills, FlowMod.tableOk, srcSlot, coversItems, FlowMod.outPortOk, covers_self, iEthSrc,
                  iVlan] at this
              rcases hd q vid m b hvid (switchEnv_flows hb0) with ⟨e, he, hq⟩ | ⟨hnone, hne⟩
              · rcases cacheCheck_some hw hi hdd with ⟨e', he', hspp, _⟩ | ⟨_, hdel, hns⟩
                · rw [he] at he'; cases he'
                  exact hspp.trans hq
                · exfalso
                  apply hdelf
                  rw [hdel, initialDelete, he]; rfl
              · exfalso
                rcases cacheCheck_some hw hi hdd with ⟨e', he', _⟩ | ⟨_, hdel, _⟩
                · rw [hnone] at he'; cases he'
                · apply hdelf
                  rw [hdel, initialDelete, hnone, hne]; rfl
        · have hhost : host (s.st.setVlan vid0 { s.st.vlan vid0 with hosts := v' }) vid m = host s.st vid m := by
            rw [host_setVlan]
            split
            · rename_i hvv
              show HostCache.cachedHost v' m = _
              rw [hg', if_neg (fun hm => hsame ⟨hvv, hm.symm⟩), hvv]
            · rfl
          have hle : ((s.st.setVlan vid0 { s.st.vlan vid0 with hosts := v' }).vlan vid).lastExpired =
              (s.st.vlan vid).lastExpired := by
            simp only [St.setVlan]
            split
            · rename_i hvv; rw [hvv]
            · rfl
          simp only [hhost, hle]
          rcases (h4 (switchEnv s.sw (.packet now n vid0 m0))).1 _ b hb with ⟨f, hf, hfc, hfs, _⟩ | ⟨hb0, hk, _⟩
          · obtain ⟨ha, hb', _⟩ := learn_src hw hf hfc hv hvid hfs
            exact absurd ⟨ha, hb'⟩ hsame
          · exact hd q vid m b hvid (switchEnv_flows hb0)
    | expire now vid0 =>
      obtain ⟨ex, s0, h1', _, hr, hh, hex, hlast⟩ := sweep_effect hi now vid0
      have h1 : sweep cfg s.st now vid0 = some (msgs, st') := h1
      rw [h1] at h1'; cases h1'
      refine ⟨stay ?_ ?_, Or.inl hr.cold⟩
      · intro f hf hfc
        split at hf
        · cases hf
        · obtain ⟨e, _, hx⟩ := List.mem_flatMap.1 hf
          rw [deleteHost_cmd hx] at hfc; cases hfc
      · intro q vid m b hvid hb _
        have hb' := hd q vid m b hvid hb
        rw [hh, hlast, hr.cold]
        by_cases hx : vid = vid0 ∧ m ∈ ex.map (·.ethSrc)
        · rw [if_pos hx]
          right
          refine ⟨rfl, ?_⟩
          rw [if_pos ⟨hx.1, by rintro rfl; simp at hx⟩]
          exact noneExpired_of_le (fun t ht => hcold t now ht rfl)
        · rw [if_neg hx]
          rcases hb' with hb' | ⟨hn, hne⟩
          · exact Or.inl hb'
          · right
            refine ⟨hn, ?_⟩
            split
            · exact noneExpired_of_le (fun t ht => hcold t now ht rfl)
            · exact hne
    | portDelete n =>
      obtain ⟨s0, h1', hr, hh, hlast⟩ := portDelete_effect hw hi n
      have h1 : portDelete cfg s.st n = some (msgs, st') := h1
      rw [h1] at h1'; cases h1'
      refine ⟨stay ?_ ?_, Or.inl hr.cold⟩
      · intro f hf hfc
        split at hf
        · cases hf
        · have hdel : f.cmd = .delete := by
            simp only [delHostFlows, List.mem_append, List.mem_cons, List.not_mem_nil, or_false] at hf
            rcases hf with (hf | hf) | hf
            · exact flowdel_cmd hf
            · exact flowdel_cmd hf
            · split at hf
              · simp only [List.mem_cons, List.not_mem_nil, or_false] at hf; exact flowdel_cmd hf
              · cases hf
          rw [hdel] at hfc; cases hfc
      · intro q vid m b hvid hb hk
        rw [hh, hlast, hr.cold]
        split
        · rename_i hx
          exfalso
          obtain ⟨hl, hx1, e, he, hn⟩ := hx
          have hne : ¬ (cfg.portVlans n = [] ∨ (cfg.port n).lacp ≠ 0) := by
            rintro (h | h)
            · rw [h] at hx1; cases hx1
            · exact h hl
          have hq : q = n := by
            rcases hd q vid m b hvid hb with ⟨e', he', hq⟩ | ⟨hnone, _⟩
            · rw [he] at he'; cases he'
              rcases hq with hq | ⟨hq, _⟩
              · rw [← hq, hn]
              · rw [hn] at hq; exact absurd hl hq
            · rw [he] at hnone; cases hnone
          rw [if_neg hne] at hk
          have := hk _ (show cfg.ethSrc.flowdel [iInPort n] ∈ delHostFlows cfg n by simp [delHostFlows]) rfl
          simp [FlowMod.kills, FlowMod.tableOk, srcSlot, coversItems, FlowMod.outPortOk, hq, iInPort, MatchItem.covers] at this
        · exact hd q vid m b hvid hb
    | portDown n =>
      cases h1
      refine ⟨same ?_ rfl rfl, Or.inl rfl⟩
      intro f hf hfc
      rw [portDown_cmd hf] at hfc; cases hfc
    | portUpdate now n => cases h1; exact ⟨same (by simp) rfl rfl, Or.inl rfl⟩
    | coldStart now => exact absurd ⟨now, rfl⟩ hc
    | flowGone sl => cases h1; exact ⟨same (by simp) rfl rfl, Or.inl rfl⟩
    | srcRemoved vid n m =>
      simp only [react, hfr] at h1
      cases h1; exact ⟨same (by simp) rfl rfl, Or.inl rfl⟩
    | dstRemoved now vid m =>
      simp only [react, hfr] at h1
      cases h1; exact ⟨same (by simp) rfl rfl, Or.inl rfl⟩

/-- C55, sources. Over any history with a clock that does not run backwards: if the switch accepts packets of a
host on a port without telling the controller, and the controller knows the host, it knows it on that port or on
another port of its LAG. Needs loop protection and the flow-removed manager to be off. -/
theorem src_rules_follow_hosts_partial (cfg : Cfg) (hw : cfg.WF) (hnl : ∀ n, (cfg.port n).loopProtect = false)
    (hfr : cfg.flowRemoved = false)
    (sh : List OfMsg → List OfMsg) (hsh : ∀ l, (sh l).Perm l) (bar : Bool) (evs : List Ev) (hv : ∀ ev ∈ evs, ev.vidOk)
    (hclock : MonotoneClock evs) (s : Sys) (hs : sysRun cfg sh bar Sys.init evs = some s)
    (q vid m : Nat) (b : Body) (hvid : vid < 4096) (hb : s.sw.flows (srcSlot cfg q vid m) = some b)
    (e : Entry) (he : host s.st vid m = some e) : SamePlace cfg e.port.number q := by
  have key : ∀ (evs : List Ev) (s0 : Sys), CInv cfg s0.st → SrcOk cfg s0 → (∀ ev ∈ evs, ev.vidOk) → MonotoneClock evs →
      (∀ t t', s0.st.coldstart = some t → t' ∈ evs.filterMap Ev.time? → t ≤ t') →
      sysRun cfg sh bar s0 evs = some s → SrcOk cfg s := by
    intro evs
    induction evs with
    | nil => intro s0 _ h _ _ _ hr; cases hr; exact h
    | cons ev evs ih =>
      intro s0 hi hok hv hm hc hr
      simp only [sysRun] at hr
      cases h1 : sysStep cfg sh bar s0 ev with
      | none => rw [h1] at hr; cases hr
      | some s1 =>
        rw [h1] at hr
        simp only [Option.bind_eq_bind, Option.bind_some] at hr
        have hc0 : ∀ t t', s0.st.coldstart = some t → ev.time? = some t' → t ≤ t' := by
          intro t t' h2 h3
          exact hc t t' h2 (by simp [h3])
        obtain ⟨hi1, hok1, hcs⟩ := srcOk_step hw hnl hfr hsh bar hi hok (hv ev (by simp)) hc0 h1
        have hm1 : MonotoneClock evs := by
          unfold MonotoneClock at hm ⊢
          rw [List.filterMap_cons] at hm
          split at hm
          · exact hm
          · exact (List.pairwise_cons.1 hm).2
        refine ih s1 hi1 hok1 (fun ev he => hv ev (List.mem_cons_of_mem _ he)) hm1 ?_ hr
        intro t t' ht ht'
        rcases hcs with hcs | ⟨hcs, _⟩
        · rw [hcs] at ht
          apply hc t t' ht
          rw [List.filterMap_cons]
          split
          · exact ht'
          · exact List.mem_cons_of_mem _ ht'
        · rw [hcs] at ht
          unfold MonotoneClock at hm
          rw [List.filterMap_cons, ht] at hm
          exact (List.pairwise_cons.1 hm).1 t' ht'
  have hok := key evs Sys.init (cinv_init cfg) (by intro q vid m b _ hb; simp [Sys.init] at hb) hv hclock
    (by intro t t' h; simp [Sys.init, St.init] at h) hs
  rcases hok q vid m b hvid hb with ⟨e', he', hq⟩ | ⟨hn, _⟩
  · rw [he] at he'; cases he'; exact hq
  · rw [he] at hn; cases hn

/-- A datapath without loop protection; a host is learned, ages out and reappears on another port. -/
def exCfgSimple : Cfg := { exCfg with port := fun n => { number := n, lacp := if n == 5 || n == 6 then 1 else 0 } }

example : exCfgSimple.WF ∧ (∀ n, (exCfgSimple.port n).loopProtect = false) ∧
    exCfgSimple.flowRemoved = false ∧
    MonotoneClock [.coldStart 1, .packet 2 1 100 5, .expire 1000 100, .packet 1001 2 100 5] ∧
    ((sysRun exCfgSimple id true Sys.init [.coldStart 1, .packet 2 1 100 5, .expire 1000 100, .packet 1001 2 100 5]).map
      (fun s => ((host s.st 100 5).map (·.port.number), (s.sw.flows (srcSlot exCfgSimple 2 100 5)).isSome,
        (s.sw.flows (srcSlot exCfgSimple 1 100 5)).isSome))) = some (some 2, true, false) := by
  refine ⟨?_, fun _ => rfl, rfl, by unfold MonotoneClock; decide, by decide⟩
  constructor
  · intro n; rfl
  all_goals first
    | decide
    | (intro t h; cases h; decide)

/-- A host moves between the ports of a LAG and then away: the source rules on both ports of the LAG go. -/
example :
    ((sysRun exCfgSimple id true Sys.init [.coldStart 1, .portUpdate 1 5, .portUpdate 1 6, .packet 2 6 100 5, .packet 5 5 100 5]).map
      (fun s => ((host s.st 100 5).map (·.port.number), (s.sw.flows (srcSlot exCfgSimple 6 100 5)).isSome))) = some (some 5, true) ∧
    ((sysRun exCfgSimple id true Sys.init [.coldStart 1, .portUpdate 1 5, .portUpdate 1 6, .packet 2 6 100 5, .packet 5 5 100 5,
        .portDelete 5, .packet 6 1 100 5]).map
      (fun s => ((host s.st 100 5).map (·.port.number), (s.sw.flows (srcSlot exCfgSimple 6 100 5)).isSome))) =
      some (some 1, false) := by decide

/-! ## C56: a port that goes down -/

/-- The messages sent for a port that is gone do their work, whatever the rest of the switch holds. -/
theorem delHostFlows_send {cfg : Cfg} (hw : cfg.WF) {sh : List OfMsg → List OfMsg} (hsh : ∀ l, (sh l).Perm l)
    (bar : Bool) (n : Nat) :
    ∃ out, FlowReorder.reorder sh bar (delHostFlows cfg n) = some out ∧ ∀ sw : Switch,
      (∀ sl b, (sw.execAll out).flows sl = some b → sl.table = cfg.ethSrc.id → iInPort n ∉ sl.items) ∧
      (∀ sl b, (sw.execAll out).flows sl = some b → sl.table = cfg.ethDst.id → b.outputsTo n = false) ∧
      (∀ t sl b, cfg.hairpin = some t → (sw.execAll out).flows sl = some b → sl.table = t.id → b.outputsTo n = false) := by
  obtain ⟨out, h3, h4⟩ := send (cfg := cfg) hsh bar (delHostFlows_simple hw n)
  refine ⟨out, h3, fun sw => ?_⟩
  have hk : ∀ sl b, (sw.execAll out).flows sl = some b → ∀ f, .flow f ∈ delHostFlows cfg n → f.cmd = .delete →
      f.kills sl b = false := by
    intro sl b hb
    rcases (h4 sw).1 _ b hb with ⟨f, hf, hfc, _⟩ | ⟨_, hk, _⟩
    · rw [delHostFlows_cmd hf] at hfc; cases hfc
    · exact hk
  refine ⟨?_, ?_, ?_⟩
  · intro sl b hb ht hin
    have := hk sl b hb _ (show cfg.ethSrc.flowdel [iInPort n] ∈ delHostFlows cfg n by simp [delHostFlows]) rfl
    simp only [FlowMod.kills, FlowMod.tableOk, ht, coversItems, FlowMod.outPortOk] at this
    have hany : sl.items.any (fun b => (iInPort n).covers b) = true :=
      List.any_eq_true.2 ⟨_, hin, covers_self _ rfl⟩
    simp [hany] at this
  · intro sl b hb ht
    have := hk sl b hb _ (show cfg.ethDst.flowdel [] 0 (some n) ∈ delHostFlows cfg n by simp [delHostFlows]) rfl
    simpa [FlowMod.kills, FlowMod.tableOk, ht, coversItems, FlowMod.outPortOk] using this
  · intro t sl b ht hb htt
    have := hk sl b hb _ (show t.flowdel [] 0 (some n) ∈ delHostFlows cfg n by simp [delHostFlows, ht]) rfl
    simpa [FlowMod.kills, FlowMod.tableOk, htt, coversItems, FlowMod.outPortOk] using this

/-- C56. After a port with VLANs is reported down: no rule in the source table accepts packets from it, and no
rule in the destination and hairpin tables outputs to it. What the controller knows of hosts is unchanged. -/
theorem port_down_silences (cfg : Cfg) (hw : cfg.WF) (sh : List OfMsg → List OfMsg) (hsh : ∀ l, (sh l).Perm l)
    (bar : Bool) (s : Sys) (n : Nat) (hn : cfg.portVlans n ≠ []) :
    ∃ s', sysStep cfg sh bar s (.portDown n) = some s' ∧
      s'.st = s.st ∧
      (∀ sl b, s'.sw.flows sl = some b → sl.table = cfg.ethSrc.id → iInPort n ∉ sl.items) ∧
      (∀ sl b, s'.sw.flows sl = some b → sl.table = cfg.ethDst.id → b.outputsTo n = false) ∧
      (∀ t sl b, cfg.hairpin = some t → s'.sw.flows sl = some b → sl.table = t.id → b.outputsTo n = false) := by
  obtain ⟨out, h3, h4⟩ := delHostFlows_send hw hsh bar n
  have h1 : portDown cfg n = delHostFlows cfg n := if_neg hn
  exact ⟨⟨s.st, s.sw.execAll out⟩, by
    simp only [sysStep, react, h1, Option.bind_eq_bind, Option.bind_some, h3]; rfl, rfl, h4 s.sw⟩

/-- C56. After a port with VLANs and not in a LAG is removed, changed, or its switch disconnects: the controller knows no host on it
(on its VLANs), no rule in the source table accepts packets from it, and no rule in the destination and hairpin tables
outputs to it. -/
theorem port_removed_forgets (cfg : Cfg) (hw : cfg.WF) (sh : List OfMsg → List OfMsg) (hsh : ∀ l, (sh l).Perm l)
    (bar : Bool) (past : List Ev) (s : Sys) (hs : sysRun cfg sh bar Sys.init past = some s)
    (n : Nat) (hn : cfg.portVlans n ≠ []) (hl : (cfg.port n).lacp = 0) :
    ∃ s', sysStep cfg sh bar s (.portDelete n) = some s' ∧
      (∀ vid ∈ cfg.portVlans n, ∀ m e, host s'.st vid m = some e → e.port.number ≠ n) ∧
      (∀ sl b, s'.sw.flows sl = some b → sl.table = cfg.ethSrc.id → iInPort n ∉ sl.items) ∧
      (∀ sl b, s'.sw.flows sl = some b → sl.table = cfg.ethDst.id → b.outputsTo n = false) ∧
      (∀ t sl b, cfg.hairpin = some t → s'.sw.flows sl = some b → sl.table = t.id → b.outputsTo n = false) := by
  have hi : CInv cfg s.st := by
    refine sysRun_ind (fun s => CInv cfg s.st) (fun _ => True) ?_ past Sys.init s (cinv_init cfg) (fun _ _ => trivial) hs
    intro s s' ev hp _ h
    obtain ⟨s1, h1, h2⟩ := sysStep_total hw hsh bar hp ev
    rw [h] at h1; cases h1; exact h2
  obtain ⟨st', h1, hr, hh, _⟩ := portDelete_effect hw hi n
  rw [if_neg (by rintro (h | h); exacts [hn h, h hl])] at h1
  obtain ⟨out, h3, h4⟩ := delHostFlows_send hw hsh bar n
  refine ⟨⟨st', s.sw.execAll out⟩, by
    simp only [sysStep, react, h1, Option.bind_eq_bind, Option.bind_some, h3]; rfl, ?_, h4 s.sw⟩
  intro vid hvid m e he hen
  rw [hh] at he
  split at he
  · cases he
  · rename_i hx; exact hx ⟨hl, hvid, e, he, hen⟩

/-- A port that is reported down keeps its hosts in the host table, as `keep_cache` says, so that until they expire
they count against the port's and the VLAN's host limits: here port 4 is limited to one host and refuses a new
one, though nothing has been heard from the old one since the port last went down and up. -/
theorem port_down_keeps_limit_defect :
    ((sysRun exCfg id true Sys.init [.coldStart 1, .portUpdate 1 4, .packet 2 4 100 5, .portUpdate 3 4, .portDown 4,
        .portUpdate 4 4, .packet 5 4 100 6]).map
      (fun s => ((host s.st 100 5).isSome, (host s.st 100 6).isSome))) = some (true, false) := by decide

/-- A host on port 1 has both rules before the port goes down, and none after. -/
example : ((sysRun exCfg id true Sys.init [.coldStart 1, .packet 2 1 100 5]).map
      (fun s => ((s.sw.flows (srcSlot exCfg 1 100 5)).isSome, (s.sw.flows (dstSlot exCfg 100 5)).isSome))) =
      some (true, true) ∧
    ((sysRun exCfg id true Sys.init [.coldStart 1, .packet 2 1 100 5, .portDown 1]).map
      (fun s => ((s.sw.flows (srcSlot exCfg 1 100 5)).isSome, (s.sw.flows (dstSlot exCfg 100 5)).isSome))) =
      some (false, false) := by decide

/-- With an egress pipeline the destination rule does not itself output to the port (it writes metadata), so the
output-port filter misses it: after the port goes down the switch still sends the host's traffic there
instead of flooding it. -/
theorem egress_port_down_defect :
    ((sysRun { exCfg with egress := some 9, hairpin := none } id true Sys.init
        [.coldStart 1, .packet 2 1 100 5, .portDelete 1]).map
      (fun s => ((host s.st 100 5).isSome,
        (s.sw.flows (dstSlot { exCfg with egress := some 9, hairpin := none } 100 5)).map (·.inst)))) =
      some (false, some (dstInst { exCfg with egress := some 9, hairpin := none } 1 100)) := by decide

/-- A hairpin rule outputs to `IN_PORT`, not to the port's number, so it too survives. -/
theorem hairpin_port_down_defect :
    ((sysRun exCfg id true Sys.init [.coldStart 1, .packet 2 2 100 5, .portDelete 2]).map
      (fun s => ((host s.st 100 5).isSome, (s.sw.flows (hairpinSlot ⟨2, 7⟩ 2 100 5)).isSome))) =
      some (false, true) := by decide

end Faucet.Learn
