import Verif.L2.Msgs

/-! # One standalone switch: events keep rules in their forms and hosts on members -/

namespace Faucet.L2
open Faucet.OF
open Faucet.Learn (iInPort iEthDst iEthSrc iVlan host CInv)
open Faucet.HostCache (Port Entry)

/-- A packet-in with a tag of a known VLAN came through a member of the VLAN. -/
def SeenOk (c : Cfg) (k : PacketIn) : Prop :=
  ∀ t r, k.tags = t :: r → (c.vlan t.1).isSome → ∃ p ∈ c.ports, p.number = k.port ∧ p.In t.1

theorem hosts_removal {c : Cfg} {st st' : Learn.St} (h : Learn.Removal c.learn st st') (hh : HostsOk c st) : HostsOk c st' :=
  fun vid m e he => hh vid m e (h.keep vid m e he)

theorem rcv_ok {c : Cfg} {st : Learn.St} (hi : CInv c.learn st) (hh : HostsOk c st) {now : Int} {n vid m : Nat}
    (hq : ∃ q ∈ c.ports, q.number = n ∧ q.In vid) {ms : List OfMsg} {st' : Learn.St}
    (h : Learn.rcvPacket c.learn st now (c.hostPort n) vid m = some (ms, st')) :
    (∀ x ∈ ms, MsgOk c x) ∧ CInv c.learn st' ∧ HostsOk c st' := by
  have hw := learn_wf c
  obtain ⟨q, hq, hn, hin⟩ := hq
  obtain ⟨msgs, st'', h1, h2⟩ := Learn.rcv_outcome hw hi now n vid m
  have h1' : Learn.rcvPacket c.learn st now (c.hostPort n) vid m = some (msgs, st'') := h1
  rw [h] at h1'
  cases h1'
  have hnew : ∀ v', HostCache.addCacheHost (st.vlan vid).hosts m (c.learn.port n) now = some v' →
      ∀ (s2 : Learn.St), s2.vlan = st.vlan → ∀ w : Learn.VlanSt, w.hosts = v' → HostsOk c (s2.setVlan vid w) := by
    intro v' hadd s2 hs w hwv vid' m' e he
    obtain ⟨-, -, h3, -⟩ := Learn.add_effect hw hi hadd
    rw [Learn.host_setVlan] at he
    by_cases hv : vid' = vid
    · rw [if_pos hv, hwv, h3] at he
      by_cases hm : m = m'
      · rw [if_pos hm] at he
        cases he
        refine ⟨q, hq, ?_, by rw [hv]; exact hin⟩
        show q.number = (c.hostPort n).number
        rw [hostPort_number, hn]
      · rw [if_neg hm] at he
        rw [hv]; exact hh vid m' e he
    · rw [if_neg hv] at he
      apply hh vid' m' e
      unfold host at he ⊢
      rw [← hs]; exact he
  cases h2 with
  | limit _ =>
    refine ⟨?_, hi, hh⟩
    intro x hx
    obtain ⟨items, rfl⟩ := Learn.banRules_simple st _ vid m x hx
    exact msgOk_drop c _ _ _ _
  | perm _ e he hp _ hm =>
    refine ⟨?_, hi, hh⟩
    intro x hx
    rw [Learn.permCheck_mem hm x hx]
    exact msgOk_drop c _ _ _ _
  | fresh _ =>
    refine ⟨?_, hi, hh⟩
    intro x hx
    cases hx
  | ban _ _ _ _ v' hadd =>
    obtain ⟨a, b, -⟩ := Learn.add_effect hw hi hadd
    refine ⟨?_, Learn.cinv_setVlan (Learn.cinv_setPort hi _ _) vid _ a b, hnew v' hadd _ rfl _ rfl⟩
    intro x hx
    rw [List.mem_singleton.1 hx]
    exact msgOk_drop c _ _ _ _
  | learn _ _ _ _ v' hadd del refresh hd =>
    obtain ⟨a, b, -⟩ := Learn.add_effect hw hi hadd
    refine ⟨?_, Learn.cinv_setVlan hi vid _ a b, hnew v' hadd _ rfl _ rfl⟩
    intro x hx
    refine learnMsg_ok c hq ?_ hin (Learn.mem_learnFlows.1 hx)
    show (c.hostPort n).number = q.number
    rw [hostPort_number, hn]

theorem dst_ok {c : Cfg} {st : Learn.St} (hi : CInv c.learn st) (hh : HostsOk c st) {now : Int} {vid m : Nat}
    {ms : List OfMsg} {st' : Learn.St} (h : Learn.react c.learn st (.dstRemoved now vid m) = some (ms, st')) :
    (∀ x ∈ ms, MsgOk c x) ∧ CInv c.learn st' ∧ HostsOk c st' := by
  obtain ⟨msgs, st'', h1, h2, -⟩ := Learn.dstRemoved_effect (cfg := c.learn) (st := st) now vid m
  rw [h] at h1
  cases h1
  have hhost : ∀ vid m, host st' vid m = host st vid m := fun vid m => by unfold host; rw [h2]
  refine ⟨?_, ⟨fun v => by rw [h2]; exact hi.inv v, fun v x e he => hi.port v x e (by rw [← hhost]; exact he)⟩,
    fun v x e he => hh v x e (by rw [← hhost]; exact he)⟩
  intro x hx
  simp only [Learn.react] at h
  split at h
  · simp only [Option.some.injEq] at h
    unfold Learn.dstRuleExpire at h
    split at h
    · rename_i e he
      have hms : ms = (Learn.learnHostOnVlanPorts c.learn st now e.port vid m false none).msgs := by
        exact (congrArg Prod.fst h).symm
      obtain ⟨q, hq, hn, hin⟩ := hh vid m e he
      rw [hms] at hx
      unfold Learn.learnHostOnVlanPorts at hx
      simp only [he] at hx
      split at hx
      · rename_i msgs hp
        rw [Learn.permCheck_mem hp x hx]
        exact msgOk_drop c _ _ _ _
      · split at hx
        · cases hx
        · split at hx
          · rw [List.mem_singleton.1 hx]; exact msgOk_drop c _ _ _ _
          · exact learnMsg_ok c hq hn.symm hin (Learn.mem_learnFlows.1 hx)
    · have : ms = [] := (congrArg Prod.fst h).symm
      rw [this] at hx; cases hx
  · cases h; cases hx

theorem cinv_update {c : Cfg} (now : Int) (ps : List LPort) : ∀ {st : Learn.St}, CInv c.learn st →
    CInv c.learn (ps.foldl (fun s p => Learn.portUpdate s p.number now) st) := by
  induction ps with
  | nil => intro st h; exact h
  | cons p ps ih => intro st h; exact ih (Learn.cinv_setPort h _ _)

theorem host_update (now : Int) (ps : List LPort) : ∀ (st : Learn.St) (vid m : Nat),
    host (ps.foldl (fun s p => Learn.portUpdate s p.number now) st) vid m = host st vid m := by
  induction ps with
  | nil => intro st vid m; rfl
  | cons p ps ih => intro st vid m; exact ih _ vid m

theorem forgetAll_removal {c : Cfg} (ps : List LPort) : ∀ {st st' : Learn.St}, CInv c.learn st → c.forgetAll ps st = some st' →
    Learn.Removal c.learn st st' := by
  induction ps with
  | nil => intro st st' hi h; cases h; exact Learn.Removal.refl hi
  | cons p ps ih =>
    intro st st' hi h
    obtain ⟨s1, h1, h2, -⟩ := Learn.portDelete_effect (learn_wf c) hi p.number
    unfold Cfg.forgetAll at h
    rw [h1] at h
    exact h2.trans (ih h2.cinv h)

/-- Every event keeps rules in their forms, and hosts on members. -/
theorem react_ok {c : Cfg} {s : Ctl} (hi : CInv c.learn s.learn) (hh : HostsOk c s.learn) {ev : Ev}
    (hs : ∀ now k, ev = .packetIn now k → SeenOk c k) {ms : List OfMsg} {s' : Ctl} (h : c.react s ev = some (ms, s')) :
    (∀ m ∈ ms, MsgOk c m) ∧ CInv c.learn s'.learn ∧ HostsOk c s'.learn := by
  have hnil : ∀ m ∈ ([] : List OfMsg), MsgOk c m := fun m hm => by cases hm
  cases ev with
  | connect now up lag =>
    simp only [Cfg.react, Option.some.injEq, Prod.mk.injEq] at h
    obtain ⟨rfl, rfl⟩ := h
    refine ⟨connect_ok c _ up lag, ⟨fun vid => HostCache.inv_reset _, ?_⟩, ?_⟩
    · intro vid m e he
      simp [host, Learn.coldStart, HostCache.resetCaches, HostCache.cachedHost] at he
    · intro vid m e he
      simp [host, Learn.coldStart, HostCache.resetCaches, HostCache.cachedHost] at he
  | disconnect now lag =>
    simp only [Cfg.react, Option.map_eq_some_iff, Prod.mk.injEq] at h
    obtain ⟨st, hst, rfl, rfl⟩ := h
    have hi' := cinv_update now c.ports hi
    have hr := forgetAll_removal c.ports hi' hst
    refine ⟨hnil, hr.cinv, hosts_removal hr ?_⟩
    intro vid m e he
    exact hh vid m e (by rw [← host_update now c.ports s.learn vid m]; exact he)
  | packetIn now k =>
    have hk := hs now k rfl
    simp only [Cfg.react] at h
    split at h
    · rename_i vid hv
      simp only [Option.map_eq_some_iff] at h
      obtain ⟨⟨ms', st⟩, h1, h2⟩ := h
      simp only [Ctl.withLearn, Prod.mk.injEq] at h2
      obtain ⟨rfl, rfl⟩ := h2
      refine rcv_ok hi hh ?_ h1
      unfold Cfg.accepted at hv
      split at hv
      · cases hv
      · rename_i t r ht
        split at hv
        · rename_i ha
          simp only [Bool.and_eq_true] at ha
          rw [← Option.some.inj hv]
          exact hk t r ht ha.1.2
        · cases hv
    · simp only [Option.some.injEq, Prod.mk.injEq] at h
      obtain ⟨rfl, rfl⟩ := h
      exact ⟨hnil, hi, hh⟩
  | expire now vid =>
    simp only [Cfg.react] at h
    split at h
    · obtain ⟨ex, st, h1, -, h2, -⟩ := Learn.sweep_effect hi now vid
      rw [h1] at h
      simp only [Option.map_some, Ctl.withLearn, Option.some.injEq, Prod.mk.injEq] at h
      obtain ⟨rfl, rfl⟩ := h
      refine ⟨?_, h2.cinv, hosts_removal h2 hh⟩
      intro x hx
      split at hx
      · cases hx
      · obtain ⟨e, -, hx⟩ := List.mem_flatMap.1 hx
        exact deleteHost_ok c _ _ _ x hx
    · simp only [Option.some.injEq, Prod.mk.injEq] at h
      obtain ⟨rfl, rfl⟩ := h
      exact ⟨hnil, hi, hh⟩
  | portUp now n lag =>
    simp only [Cfg.react] at h
    split at h
    · rename_i p hp
      simp only [Option.some.injEq, Prod.mk.injEq] at h
      obtain ⟨rfl, rfl⟩ := h
      exact ⟨upMsgs_ok c _ (find_some hp).1 _, Learn.cinv_setPort hi _ _, hh⟩
    · simp only [Option.some.injEq, Prod.mk.injEq] at h
      obtain ⟨rfl, rfl⟩ := h
      exact ⟨hnil, hi, hh⟩
  | portDown now n lag =>
    simp only [Cfg.react] at h
    split at h
    · rename_i p hp
      simp only [Option.some.injEq, Prod.mk.injEq] at h
      obtain ⟨rfl, rfl⟩ := h
      exact ⟨downMsgs_ok c _ (find_some hp).1 _, Learn.cinv_setPort hi _ _, hh⟩
    · simp only [Option.some.injEq, Prod.mk.injEq] at h
      obtain ⟨rfl, rfl⟩ := h
      exact ⟨hnil, hi, hh⟩
  | lag n sel act =>
    simp only [Cfg.react] at h
    split at h
    · rename_i p hp
      split at h
      · simp only [Option.some.injEq, Prod.mk.injEq] at h
        obtain ⟨rfl, rfl⟩ := h
        exact ⟨lagMsgs_ok c _ false (find_some hp).1, hi, hh⟩
      · simp only [Option.some.injEq, Prod.mk.injEq] at h
        obtain ⟨rfl, rfl⟩ := h
        exact ⟨hnil, hi, hh⟩
    · simp only [Option.some.injEq, Prod.mk.injEq] at h
      obtain ⟨rfl, rfl⟩ := h
      exact ⟨hnil, hi, hh⟩
  | srcRemoved vid n m =>
    obtain ⟨st, h1, h2, -⟩ := Learn.srcRemoved_effect (learn_wf c) hi vid n m
    simp only [Cfg.react, h1, Option.map_some, Ctl.withLearn, Option.some.injEq, Prod.mk.injEq] at h
    obtain ⟨rfl, rfl⟩ := h
    exact ⟨hnil, h2.cinv, hosts_removal h2 hh⟩
  | dstRemoved now vid m =>
    simp only [Cfg.react, Option.map_eq_some_iff] at h
    obtain ⟨⟨ms', st⟩, h1, h2⟩ := h
    simp only [Ctl.withLearn, Prod.mk.injEq] at h2
    obtain ⟨rfl, rfl⟩ := h2
    exact dst_ok hi hh h1

/-! ## The switch -/

def FlowsOk (c : Cfg) (sw : Switch) : Prop := ∀ sl b, sw.flows sl = some b → FlowOk c sl b.inst
def GroupsOk (c : Cfg) (sw : Switch) : Prop := c.groupTable = true → ∀ g bs, sw.groups g = some bs → GroupOk c g bs

theorem onFlow_ok {c : Cfg} {m : OfMsg} (hm : MsgOk c m) {sl : Slot} {b : Option Body}
    (hb : ∀ x, b = some x → FlowOk c sl x.inst) : ∀ x, m.onFlow sl b = some x → FlowOk c sl x.inst := by
  intro x hx
  cases m with
  | flow f =>
    unfold OfMsg.onFlow at hx
    cases hc : f.cmd with
    | add =>
      simp only [hc] at hx
      split at hx
      · rename_i hs; cases hx; rw [← hs]; exact hm (Or.inl hc)
      · exact hb x hx
    | modifyStrict =>
      simp only [hc] at hx
      split at hx
      · rename_i hs
        obtain ⟨y, hy, rfl⟩ := Option.map_eq_some_iff.1 hx
        rw [← hs]; exact hm (Or.inr hc)
      · exact hb x hx
    | delete => simp only [hc] at hx; exact hb x (Option.filter_eq_some_iff.1 hx).1
    | deleteStrict => simp only [hc] at hx; exact hb x (Option.filter_eq_some_iff.1 hx).1
  | _ => exact hb x (Option.filter_eq_some_iff.1 hx).1

theorem onGroup_ok {c : Cfg} {m : OfMsg} (hm : MsgOk c m) {g : Nat} {b : Option (List (List Action))}
    (hb : ∀ x, b = some x → GroupOk c g x) : ∀ x, m.onGroup g b = some x → GroupOk c g x := by
  intro x hx
  cases m with
  | group y =>
    obtain ⟨cmd, gid, bs⟩ := y
    cases cmd with
    | delete =>
      cases gid with
      | none => cases hx
      | some i =>
        simp only [OfMsg.onGroup] at hx
        split at hx
        · cases hx
        · exact hb x hx
    | add =>
      cases gid with
      | none => exact hb x hx
      | some i =>
        simp only [OfMsg.onGroup] at hx
        split at hx
        · rename_i hig
          subst hig
          split at hx
          · cases hx; exact hm rfl i rfl
          · cases hx; exact hb x rfl
        · exact hb x hx
  | _ => exact hb x hx

theorem exec_flows_ok {c : Cfg} {sw : Switch} (h : FlowsOk c sw) {out : List OfMsg} (hm : ∀ m ∈ out, MsgOk c m) :
    FlowsOk c (sw.execAll out) := by
  induction out generalizing sw with
  | nil => exact h
  | cons m ms ih =>
    refine ih (sw := sw.exec m) ?_ (fun x hx => hm x (List.mem_cons_of_mem _ hx))
    exact fun sl b hb => onFlow_ok (hm m List.mem_cons_self) (h sl) b hb

theorem exec_groups_ok {c : Cfg} {sw : Switch} (h : GroupsOk c sw) {out : List OfMsg} (hm : ∀ m ∈ out, MsgOk c m) :
    GroupsOk c (sw.execAll out) := by
  induction out generalizing sw with
  | nil => exact h
  | cons m ms ih =>
    refine ih (sw := sw.exec m) ?_ (fun x hx => hm x (List.mem_cons_of_mem _ hx))
    exact fun hg g b hb => onGroup_ok (hm m List.mem_cons_self) (h hg g) b hb

/-- Messages that leave an empty switch behind. -/
theorem exec_wiped_flows {c : Cfg} (sw : Switch) {out : List OfMsg} (hm : ∀ m ∈ out, MsgOk c m) {d : OfMsg} (hd : d ∈ out)
    (hw : ∀ sl b, d.onFlow sl b = none) : FlowsOk c (sw.execAll out) := by
  obtain ⟨a, b, rfl⟩ := List.append_of_mem hd
  have : sw.execAll (a ++ d :: b) = ((sw.execAll a).exec d).execAll b := by simp [Switch.execAll]
  rw [this]
  refine exec_flows_ok ?_ (fun m h => hm m (by simp [h]))
  intro sl x hx
  simp [Switch.exec, hw] at hx

theorem exec_wiped_groups {c : Cfg} (sw : Switch) {out : List OfMsg} (hm : ∀ m ∈ out, MsgOk c m) {d : OfMsg} (hd : d ∈ out)
    (hw : ∀ g b, d.onGroup g b = none) : GroupsOk c (sw.execAll out) := by
  obtain ⟨a, b, rfl⟩ := List.append_of_mem hd
  have : sw.execAll (a ++ d :: b) = ((sw.execAll a).exec d).execAll b := by simp [Switch.execAll]
  rw [this]
  refine exec_groups_ok ?_ (fun m h => hm m (by simp [h]))
  intro _ g x hx
  simp [Switch.exec, hw] at hx

theorem out_ok {c : Cfg} {sh : List OfMsg → List OfMsg} (hsh : ∀ l, (sh l).Perm l) {bar : Bool} {ms out : List OfMsg}
    (hout : FlowReorder.reorder sh bar ms = some out) (hm : ∀ m ∈ ms, MsgOk c m) : ∀ m ∈ out, MsgOk c m := by
  intro m h
  rcases FlowReorder.reorder_no_invention sh hsh bar ms out hout m h with h | ⟨-, rfl⟩
  · exact hm m h
  · trivial

/-- Global deletes stay, up to what `str` does not show. -/
theorem global_stays {sh : List OfMsg → List OfMsg} {bar : Bool} {ms out : List OfMsg}
    (hout : FlowReorder.reorder sh bar ms = some out) {d : OfMsg} (hd : d ∈ ms) (hk : FlowReorder.msgKind d = .deleteglobal) :
    ∃ d' ∈ out, FlowReorder.strKey d' = FlowReorder.strKey d := by
  rw [FlowReorder.reorder_eq] at hout
  obtain ⟨dels, -, rfl⟩ := Option.map_eq_some_iff.1 hout
  obtain ⟨d', h1, h2⟩ := FlowReorder.exists_seg (sh := sh) hd
  rw [hk] at h1
  refine ⟨d', ?_, h2⟩
  have := FlowReorder.mem_emit_of (bar := bar) h1
  simp [FlowReorder.assemble, this]

theorem connect_flows {c : Cfg} {sh : List OfMsg → List OfMsg} (hsh : ∀ l, (sh l).Perm l) {bar : Bool} {d : Nat → Dyn} {up : List Nat}
    {lag : Nat → LagChange} {out : List OfMsg} (hout : FlowReorder.reorder sh bar (c.connectMsgs d up lag) = some out) (sw : Switch) :
    FlowsOk c (sw.execAll out) ∧ GroupsOk c (sw.execAll out) := by
  have hm := out_ok hsh hout (connect_ok c d up lag)
  constructor
  · have hd : (⟨tableAll, 0⟩ : Table).flowdel [] ∈ c.connectMsgs d up lag := by simp [Cfg.connectMsgs, Cfg.defaults]
    obtain ⟨d', h1, h2⟩ := global_stays hout hd (by decide)
    refine exec_wiped_flows sw hm h1 ?_
    intro sl b
    obtain ⟨g, rfl, hc, ht, -, hi, -, -, ho⟩ := FlowReorder.strKey_flow h2
    have hc : g.cmd = .delete := hc
    unfold OfMsg.onFlow
    simp only [hc]
    refine Option.filter_eq_none_iff.2 ?_
    intro x _
    have ht : g.table = tableAll := ht
    have hi : g.mtch.items = [] := hi
    have ho : g.outPort = none := ho
    simp [FlowMod.kills, hc, FlowMod.tableOk, ht, hi, coversItems, FlowMod.outPortOk, ho]
  · by_cases hg : c.groupTable = true
    · have hd : OfMsg.group ⟨.delete, none, []⟩ ∈ c.connectMsgs d up lag := by simp [Cfg.connectMsgs, Cfg.defaults, hg]
      obtain ⟨d', h1, h2⟩ := global_stays hout hd (by decide)
      have := FlowReorder.strKey_nonflow h2 (by intro f h; cases h)
      subst this
      exact exec_wiped_groups sw hm h1 (fun g b => rfl)
    · intro h; exact absurd h hg

end Faucet.L2
