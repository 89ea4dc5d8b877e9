import Verif.Routed.Fib
import Verif.L2.Delivery

/-! # The rules of a switch that routes: those of switching and those of routing -/

namespace Faucet.Routed
open Faucet.OF
open Faucet.L2 (Away URule MsgU DelU UFlows Stage)
open Faucet.Learn (iInPort iEthDst iEthSrc iVlan)
open Faucet.Route (put cut slotAfter slotAfter_cons execAll_flows onFlow_put onFlow_cut Puts)

/-- The configurations of C69: switching as in C63, IPv4 routing with the VLANs' router MACs, and as in C20. -/
structure RCfg.Ok (c : RCfg) : Prop where
  wf : c.l2.WF
  basic : c.l2.Basic
  ipv4 : c.l2.ipv4 = true
  vlans : ∀ v ∈ c.vlans, ∃ w ∈ c.l2.vlans, w.vid = v.vid ∧ w.faucetMac = v.mac
  conf : Route.ConfOk c.mgr c.vlans
  vips : Route.VipsOk c.mgr c.vlans

variable {c : RCfg} {K : Nat → Prop}

/-! ## Slots of routing -/

/-- The slots of rules of the route manager. -/
def RCfg.routing (c : RCfg) (sl : Slot) : Bool :=
  ((sl.table == c.l2.tfib || sl.table == c.l2.tvip) && sl.items != []) ||
  (sl.table == c.l2.tc && sl.priority == highPriority && sl.items.all (fun i => i.field != fInPort && i.field != fEthSrc))

theorem routing_iff {sl : Slot} : c.routing sl = true ↔ ((sl.table = c.l2.tfib ∨ sl.table = c.l2.tvip) ∧ sl.items ≠ []) ∨
    (sl.table = c.l2.tc ∧ sl.priority = highPriority ∧ ∀ i ∈ sl.items, i.field ≠ fInPort ∧ i.field ≠ fEthSrc) := by
  unfold RCfg.routing
  simp [and_assoc]

theorem urule_not_routing (ho : c.Ok) {sl : Slot} {inst : List Inst} {h i : Nat} (hr : URule c.l2 K sl inst h i) : c.routing sl = false := by
  obtain ⟨hc0, hs0, hd0, hf0, hsd, hsf, hdf, hcd, hcf, hcs, hcs', -⟩ := ho.basic.distinct
  have hF := ho.basic.fib ho.ipv4
  have hV := ho.basic.vip ho.ipv4
  have key : ∀ (t pr : Nat) (items : List MatchItem), t ≠ c.l2.tfib → t ≠ c.l2.tvip → (t = c.l2.tc → pr ≠ highPriority) →
      c.routing ⟨t, pr, items⟩ = false := by
    intro t pr items h1 h2 h3
    rw [← Bool.not_eq_true, routing_iff]
    rintro (⟨h | h, -⟩ | ⟨h, h', -⟩)
    · exact h1 h
    · exact h2 h
    · exact h3 h h'
  have hfc : c.l2.tfib ≠ c.l2.tc := hF.cls
  have hvc : c.l2.tvip ≠ c.l2.tc := hV.cls
  cases hr with
  | dVlan => exact key _ _ _ hF.zero.symm hV.zero.symm (fun h => absurd h.symm hc0)
  | dClass _ => exact key _ _ _ hF.cls.symm hV.cls.symm (fun _ => by decide)
  | dSrc => exact key _ _ _ hF.src.symm hV.src.symm (fun _ => by decide)
  | dDst => exact key _ _ _ hF.dst.symm hV.dst.symm (fun h => absurd h.symm hcd)
  | dFlood => exact key _ _ _ hF.flood.symm hV.flood.symm (fun h => absurd h.symm hcf)
  | dFib _ =>
    rw [← Bool.not_eq_true, routing_iff]
    rintro (⟨-, h⟩ | ⟨h, -⟩)
    · exact h rfl
    · exact hfc h
  | dVip _ =>
    rw [← Bool.not_eq_true, routing_iff]
    rintro (⟨-, h⟩ | ⟨h, -⟩)
    · exact h rfl
    · exact hvc h
  | untagged => exact key _ _ _ hF.zero.symm hV.zero.symm (fun h => absurd h.symm hc0)
  | tagged => exact key _ _ _ hF.zero.symm hV.zero.symm (fun h => absurd h.symm hc0)
  | untagMiss => exact key _ _ _ hF.zero.symm hV.zero.symm (fun h => absurd h.symm hc0)
  | lldp => exact key _ _ _ hF.zero.symm hV.zero.symm (fun h => absurd h.symm hc0)
  | outOnly => exact key _ _ _ hF.zero.symm hV.zero.symm (fun h => absurd h.symm hc0)
  | bcast => exact key _ _ _ hF.cls.symm hV.cls.symm (fun _ => by decide)
  | ectp => exact key _ _ _ hF.cls.symm hV.cls.symm (fun _ => by decide)
  | spoof => exact key _ _ _ hF.cls.symm hV.cls.symm (fun _ => by decide)
  | unknown => exact key _ _ _ hF.src.symm hV.src.symm (fun _ => by decide)
  | src => exact key _ _ _ hF.src.symm hV.src.symm (fun _ => by decide)
  | ban => exact key _ _ _ hF.src.symm hV.src.symm (fun _ => by decide)
  | dst => exact key _ _ _ hF.dst.symm hV.dst.symm (fun h => absurd h.symm hcd)
  | reserved => exact key _ _ _ hF.flood.symm hV.flood.symm (fun h => absurd h.symm hcf)
  | floodV => exact key _ _ _ hF.flood.symm hV.flood.symm (fun h => absurd h.symm hcf)
  | floodP => exact key _ _ _ hF.flood.symm hV.flood.symm (fun h => absurd h.symm hcf)

/-- Messages of switching do not touch the rules of routing. -/
theorem onFlow_keep (ho : c.Ok) {n : Option Nat} {md : Bool} {m : OfMsg} (hm : MsgU c.l2 K n md m) {sl : Slot} (hs : c.routing sl = true)
    (b : Option Body) : m.onFlow sl b = b := by
  obtain ⟨hc0, hs0, hd0, hf0, hsd, hsf, hdf, hcd, hcf, hcs, hcs', hsA, hdA, hfA, hcA⟩ := ho.basic.distinct
  have hF := ho.basic.fib ho.ipv4
  have hV := ho.basic.vip ho.ipv4
  have hcase := routing_iff.1 hs
  have htd : sl.table ≠ c.l2.td := by
    rcases hcase with ⟨h | h, -⟩ | ⟨h, -⟩ <;> rw [h]
    · exact hF.dst
    · exact hV.dst
    · exact hcd
  have htf : sl.table ≠ c.l2.tf := by
    rcases hcase with ⟨h | h, -⟩ | ⟨h, -⟩ <;> rw [h]
    · exact hF.flood
    · exact hV.flood
    · exact hcf
  have ht0 : sl.table ≠ 0 := by
    rcases hcase with ⟨h | h, -⟩ | ⟨h, -⟩ <;> rw [h]
    · exact hF.zero
    · exact hV.zero
    · exact hc0
  have hts : sl.table = c.l2.ts → ∀ i ∈ sl.items, i.field ≠ fInPort ∧ i.field ≠ fEthSrc := by
    intro h
    rcases hcase with ⟨h' | h', -⟩ | ⟨-, -, h'⟩
    · rw [h'] at h; exact absurd h hF.src
    · rw [h'] at h; exact absurd h hV.src
    · exact h'
  have hfil : (∀ x, m.kills sl x = false) → b.filter (fun x => !m.kills sl x) = b := by
    intro h
    cases b with
    | none => rfl
    | some x => simp [Option.filter, h x]
  cases m with
  | flow f =>
    cases hc : f.cmd with
    | add =>
      have := urule_not_routing ho (hm.1 hc)
      have hne : f.slot ≠ sl := by intro h; rw [h, hs] at this; cases this
      simp [OfMsg.onFlow, hc, hne]
    | modifyStrict =>
      have := urule_not_routing ho (hm.2.1 hc).2.2
      have hne : f.slot ≠ sl := by intro h; rw [h, hs] at this; cases this
      simp [OfMsg.onFlow, hc, hne]
    | deleteStrict => exact absurd hc hm.2.2.2
    | delete =>
      have hk : ∀ x, f.kills sl x = false := by
        intro x
        by_contra hk
        simp only [FlowMod.kills, hc, Bool.not_eq_false, Bool.and_eq_true, FlowMod.tableOk, Bool.or_eq_true, beq_iff_eq] at hk
        obtain ⟨⟨htab, hcov⟩, hout⟩ := hk
        cases hm.2.2.1 hc with
        | port _ ht hi =>
          obtain ⟨y, hy, hyf, -⟩ := L2.covers_inPort hcov hi
          rcases ht with ht | ht
          · rw [ht] at htab
            rcases htab with h | h
            · exact absurd h (by decide)
            · exact ht0 h.symm
          · rw [ht] at htab
            rcases htab with h | h
            · exact hsA h
            · exact (hts h.symm y hy).1 hyf
        | flood _ ht _ =>
          rw [ht] at htab
          rcases htab with h | h
          · exact hfA h
          · exact htf h.symm
        | out ht _ =>
          rw [ht] at htab
          rcases htab with h | h
          · exact hdA h
          · exact htd h.symm
        | hostSrc ht hi =>
          obtain ⟨y, hy, hyf, -⟩ := L2.covers_field hcov hi rfl
          rw [ht] at htab
          rcases htab with h | h
          · exact hsA h
          · exact (hts h.symm y hy).2 hyf
        | hostDst ht _ =>
          rw [ht] at htab
          rcases htab with h | h
          · exact hdA h
          · exact htd h.symm
      have h : b.filter (fun x => !f.kills sl x) = b := hfil hk
      simp only [OfMsg.onFlow, hc]
      exact h
  | group _ => exact hm.elim
  | meter _ => exact hm.elim
  | _ => exact hfil (fun _ => rfl)

/-! ## The switch without routing -/

/-- The switch without the rules of routing. -/
def RCfg.base (c : RCfg) (sw : Switch) : Switch := ⟨fun sl => if c.routing sl then none else sw.flows sl, sw.groups, sw.meters⟩

theorem base_flows (c : RCfg) (sw : Switch) (sl : Slot) : (c.base sw).flows sl = if c.routing sl then none else sw.flows sl := rfl

/-- All the messages are of routing. -/
def RMsg (c : RCfg) (m : OfMsg) : Prop := (∃ s b, m = put s b ∧ c.routing s = true) ∨ ∃ k s, m = cut k s ∧ c.routing s = true ∧ s.table ≠ tableAll

theorem rmsg_spares {ms : List OfMsg} (h : ∀ m ∈ ms, RMsg c m) {sl : Slot} (hs : c.routing sl = false) (x : Option Body) :
    slotAfter ms sl x = x := by
  induction ms generalizing x with
  | nil => rfl
  | cons m ms ih =>
    rw [slotAfter_cons, ih (fun y hy => h y (List.mem_cons_of_mem _ hy))]
    rcases h m (by simp) with ⟨s, b, rfl, hr⟩ | ⟨k, s, rfl, hr, ht⟩
    · rw [onFlow_put, if_neg]; rintro rfl; rw [hr] at hs; cases hs
    · rw [onFlow_cut ht, if_neg]; rintro rfl; rw [hr] at hs; cases hs

theorem base_rmsg (sw : Switch) {ms : List OfMsg} (h : ∀ m ∈ ms, RMsg c m) : (c.base (sw.execAll ms)).flows = (c.base sw).flows := by
  funext sl
  rw [base_flows, base_flows]
  cases hs : c.routing sl with
  | true => rfl
  | false =>
    simp only [Bool.false_eq_true, if_false]
    rw [execAll_flows, rmsg_spares h hs]

theorem slotAfter_keep (ho : c.Ok) {n : Option Nat} {md : Bool} {ms : List OfMsg} (h : ∀ m ∈ ms, MsgU c.l2 K n md m) {sl : Slot}
    (hs : c.routing sl = true) (x : Option Body) : slotAfter ms sl x = x := by
  induction ms generalizing x with
  | nil => rfl
  | cons m ms ih =>
    rw [slotAfter_cons, ih (fun y hy => h y (List.mem_cons_of_mem _ hy)), onFlow_keep ho (h m (by simp)) hs]

theorem base_msgU (ho : c.Ok) {n : Option Nat} {md : Bool} (sw : Switch) {ms : List OfMsg} (h : ∀ m ∈ ms, MsgU c.l2 K n md m) :
    (c.base (sw.execAll ms)).flows = ((c.base sw).execAll ms).flows := by
  funext sl
  rw [base_flows, execAll_flows, execAll_flows, base_flows]
  cases hs : c.routing sl with
  | true => simp only [if_true]; rw [slotAfter_keep ho h hs]
  | false => rfl

theorem base_ufl (ho : c.Ok) {sw : Switch} (h : UFlows c.l2 K sw) : (c.base sw).flows = sw.flows := by
  funext sl
  rw [base_flows]
  cases hs : c.routing sl with
  | false => rfl
  | true =>
    cases hf : sw.flows sl with
    | none => rfl
    | some b =>
      have := urule_not_routing ho (h sl b hf)
      rw [hs] at this; cases this

/-! ## The rules of routing -/

/-- The rules of the route manager there can be. -/
inductive RRule (c : RCfg) : Slot → Body → Prop
  | selArp {v} : v ∈ c.vlans → v.vips ≠ [] → RRule c ⟨c.l2.tc, highPriority, [iType typeArp, iVlan v.vid]⟩ { inst := [.goto c.l2.tvip], cookie := c.l2.classTable.cookie }
  | selIp {v} : v ∈ c.vlans → v.vips ≠ [] → RRule c ⟨c.l2.tc, highPriority, [iEthDst v.mac, iType typeIp, iVlan v.vid]⟩
      { inst := [.goto c.l2.tfib], cookie := c.l2.classTable.cookie }
  | vipAsk {v x} : v ∈ c.vlans → x ∈ v.vips → RRule c ⟨c.l2.tvip, Route.lpmPriority + 32, [iEthDst L2.broadcastMac, iType typeArp, iTpa x.ip]⟩
      { inst := [.apply [.output portController]], cookie := (c.l2.table .vip).cookie }
  | vipReply {v} : v ∈ c.vlans → RRule c ⟨c.l2.tvip, Route.lpmPriority + 32, [iEthDst v.mac, iType typeArp]⟩
      { inst := [.apply [.output portController]], cookie := (c.l2.table .vip).cookie }
  | vipArp : RRule c ⟨c.l2.tvip, Route.lpmPriority + 31, [iType typeArp]⟩ { inst := [.goto c.l2.td], cookie := (c.l2.table .vip).cookie }
  | icmpUs {v} : v ∈ c.vlans → RRule c ⟨c.l2.tvip, Route.lpmPriority + 31, [iEthDst v.mac, iType typeIp, iProto 1]⟩
      { inst := [.apply [.output portController]], cookie := (c.l2.table .vip).cookie }
  | icmp : RRule c ⟨c.l2.tvip, Route.lpmPriority + 30, [iType typeIp, iProto 1]⟩
      { inst := [.goto c.l2.td, .apply [.output portController]], cookie := (c.l2.table .vip).cookie }
  | ipUs {v} : v ∈ c.vlans → RRule c ⟨c.l2.tvip, Route.lpmPriority + 29, [iEthDst v.mac, iType typeIp]⟩
      { inst := [.apply [.output portController]], cookie := (c.l2.table .vip).cookie }
  | ip : RRule c ⟨c.l2.tvip, Route.lpmPriority + 28, [iType typeIp]⟩
      { inst := [.goto c.l2.td, .apply [.output portController]], cookie := (c.l2.table .vip).cookie }
  | route {v rv n mac} : v ∈ c.vlans → rv ∈ c.mgr.routed v → RRule c (c.mgr.slot rv n) (c.mgr.routeBody v mac)
  | hole {rv n hard} : RRule c (c.mgr.slot rv n) (c.mgr.holeBody hard)
  | vip {rv n} : RRule c (c.mgr.slot rv n) c.mgr.vipBody

theorem outId_eq (ho : c.Ok) : c.outId = c.l2.td := by
  obtain ⟨-, -, h3, -⟩ := ho.basic.ids
  rw [h3]
  show Pipeline.idOf c.l2.conf (Pipeline.outTable c.l2.conf) = _
  rw [ho.basic.conf]
  exact (L2.ids _ _).out

theorem slot_routing (rv : Nat) (n : Route.Net) : c.routing (c.mgr.slot rv n) = true :=
  routing_iff.2 (Or.inl ⟨Or.inl rfl, by simp [Route.Mgr.slot, Route.Mgr.routeMatch]⟩)

theorem rrule_routing {sl : Slot} {b : Body} (h : RRule c sl b) : c.routing sl = true := by
  have hv : ∀ pr items, items ≠ [] → c.routing ⟨c.l2.tvip, pr, items⟩ = true := fun pr items h => routing_iff.2 (Or.inl ⟨Or.inr rfl, h⟩)
  cases h with
  | selArp _ _ => exact routing_iff.2 (Or.inr ⟨rfl, rfl, by simp [iType, iVlan]; decide⟩)
  | selIp _ _ => exact routing_iff.2 (Or.inr ⟨rfl, rfl, by simp [iType, iVlan, iEthDst]; decide⟩)
  | vipAsk | vipReply | vipArp | icmpUs | icmp | ipUs | ip => exact hv _ _ (by simp)
  | route | hole | vip => exact slot_routing _ _

/-- What `add_vlan` sends. -/
theorem addVlan_rules (ho : c.Ok) {v : Route.Vlan} (hv : v ∈ c.vlans) : ∀ m ∈ c.addVlan v, ∃ s b, m = put s b ∧ RRule c s b := by
  intro m hm
  obtain ⟨x, hx, hm⟩ := List.mem_flatMap.1 hm
  have htrim : ∀ n : Nat, trimInst [.goto n, .apply [.output portController]] = [.goto n, .apply [.output portController]] := by
    intro n; simp [trimInst, trimOne, Inst.isGoto, Action.isCt]
  have hctrl : trimInst [.apply [.output portController]] = [.apply [.output portController]] := by decide
  have hput : ∀ (t : Table) (items : List MatchItem) (prio : Nat) (inst : List Inst), t.flowadd items prio inst =
      put ⟨t.id, prio, items⟩ { inst := trimInst inst, cookie := t.cookie } := fun _ _ _ _ => rfl
  have hsel : ∀ n, trimInst [.goto n] = [.goto n] := Learn.trimInst_goto
  have hout := outId_eq ho
  rcases List.mem_append.1 hm with hm | hm
  · simp only [RCfg.vipNd, RCfg.select, RCfg.vipCtrl, hput, hctrl, hsel, hout, List.mem_cons, List.not_mem_nil, or_false] at hm
    rcases hm with rfl | rfl | rfl | rfl
    · exact ⟨_, _, rfl, .selArp hv (List.ne_nil_of_mem hx)⟩
    · exact ⟨_, _, rfl, .vipAsk hv hx⟩
    · exact ⟨_, _, rfl, .vipReply hv⟩
    · exact ⟨_, _, rfl, .vipArp⟩
  · unfold RCfg.fibToVip at hm
    rcases List.mem_cons.1 hm with rfl | hm
    · simp only [RCfg.select, hput, hsel]; exact ⟨_, _, rfl, .selIp hv (List.ne_nil_of_mem hx)⟩
    · rcases List.mem_append.1 hm with hm | hm
      · rw [Route.vipFlows_eq] at hm
        rcases List.mem_cons.1 hm with rfl | hm
        · exact ⟨_, _, rfl, .vip⟩
        · split at hm
          · obtain ⟨rv, -, rfl⟩ := List.mem_map.1 hm
            exact ⟨_, _, rfl, .vip⟩
          · cases hm
      · unfold RCfg.vipIp at hm
        split at hm
        · simp only [RCfg.vipCtrl, RCfg.vipBoth, hput, hctrl, htrim, hout, List.mem_cons, List.not_mem_nil, or_false] at hm
          rcases hm with rfl | rfl | rfl | rfl
          · exact ⟨_, _, rfl, .icmpUs hv⟩
          · exact ⟨_, _, rfl, .icmp⟩
          · exact ⟨_, _, rfl, .ipUs hv⟩
          · exact ⟨_, _, rfl, .ip⟩
        · cases hm

theorem evMsgs_sub {ev : L2.Ev} {m : OfMsg} (hm : m ∈ c.evMsgs ev) : ∃ v ∈ c.vlans, m ∈ c.addVlan v := by
  cases ev with
  | connect now up lag => exact List.mem_flatMap.1 hm
  | portUp now n lag =>
    simp only [RCfg.evMsgs] at hm
    split at hm
    · split at hm
      · obtain ⟨v, hv, hm⟩ := List.mem_flatMap.1 hm
        exact ⟨v, (List.mem_filter.1 hv).1, hm⟩
      · cases hm
    · cases hm
  | _ => cases hm

theorem evMsgs_rules (ho : c.Ok) {ev : L2.Ev} : ∀ m ∈ c.evMsgs ev, ∃ s b, m = put s b ∧ RRule c s b := by
  intro m hm
  obtain ⟨v, hv, hm⟩ := evMsgs_sub hm
  exact addVlan_rules ho hv m hm

theorem evMsgs_rmsg (ho : c.Ok) {ev : L2.Ev} : ∀ m ∈ c.evMsgs ev, RMsg c m := by
  intro m hm
  obtain ⟨s, b, rfl, hr⟩ := evMsgs_rules ho m hm
  exact Or.inl ⟨s, b, rfl, rrule_routing hr⟩

theorem fib_rmsg (ho : c.Ok) {m : OfMsg} (h : FibMsg c.mgr c.vlans m) : RMsg c m := by
  have hA : c.l2.tfib ≠ tableAll := (ho.basic.fib ho.ipv4).all
  rcases h with ⟨v, hv, rv, hrv, n, mac, rfl⟩ | ⟨rv, n, hard, rfl⟩ | ⟨k, rv, n, rfl⟩
  · exact Or.inl ⟨_, _, rfl, slot_routing _ _⟩
  · exact Or.inl ⟨_, _, rfl, slot_routing _ _⟩
  · exact Or.inr ⟨_, _, rfl, slot_routing _ _, hA⟩

/-- The rules of routing on a switch are such. -/
def RFlows (c : RCfg) (sw : Switch) : Prop := ∀ sl b, c.routing sl = true → sw.flows sl = some b → RRule c sl b

theorem rflows_ev (ho : c.Ok) {sw : Switch} (h : RFlows c sw) (ev : L2.Ev) : RFlows c (sw.execAll (c.evMsgs ev)) := by
  intro sl b hs hb
  rw [execAll_flows] at hb
  have hputs := puts_after (fun m hm => by obtain ⟨s, b, h, -⟩ := evMsgs_rules ho (ev := ev) m hm; exact ⟨s, b, h⟩) sl (sw.flows sl)
  by_cases hp : Puts (c.evMsgs ev) sl
  · obtain ⟨b', h1, h2⟩ := hputs.2 hp
    rw [h2] at hb
    cases hb
    obtain ⟨s, b', he, hr⟩ := evMsgs_rules ho _ h1
    obtain ⟨rfl, rfl⟩ := Route.put_inj he
    exact hr
  · rw [hputs.1 hp] at hb
    exact h sl b hs hb

theorem rflows_fib (ho : c.Ok) {sw : Switch} (h : RFlows c sw) {ms : List OfMsg} (hm : FibMsgs c.mgr c.vlans ms) : RFlows c (sw.execAll ms) := by
  intro sl b hs hb
  rw [execAll_flows] at hb
  rcases (fib_after (ho.basic.fib ho.ipv4).all hm sl _).2 b hb with h' | ⟨v, hv, rv, hrv, n, mac, rfl, rfl⟩ | ⟨rv, n, hard, rfl, rfl⟩
  · exact h sl b hs h'
  · exact .route hv hrv
  · exact .hole

/-- The rules of routing that are always there. -/
inductive RNeeded (c : RCfg) : Slot → Prop
  | selArp {v x} : v ∈ c.vlans → x ∈ v.vips → RNeeded c ⟨c.l2.tc, highPriority, [iType typeArp, iVlan v.vid]⟩
  | selIp {v x} : v ∈ c.vlans → x ∈ v.vips → RNeeded c ⟨c.l2.tc, highPriority, [iEthDst v.mac, iType typeIp, iVlan v.vid]⟩
  | vipAsk {v x} : v ∈ c.vlans → x ∈ v.vips → RNeeded c ⟨c.l2.tvip, Route.lpmPriority + 32, [iEthDst L2.broadcastMac, iType typeArp, iTpa x.ip]⟩
  | vipReply {v x} : v ∈ c.vlans → x ∈ v.vips → RNeeded c ⟨c.l2.tvip, Route.lpmPriority + 32, [iEthDst v.mac, iType typeArp]⟩
  | vipArp {v x} : v ∈ c.vlans → x ∈ v.vips → RNeeded c ⟨c.l2.tvip, Route.lpmPriority + 31, [iType typeArp]⟩
  | icmpUs {v x} : v ∈ c.vlans → x ∈ v.vips → c.proactive = true → linkLocal4 x.ip = false →
      RNeeded c ⟨c.l2.tvip, Route.lpmPriority + 31, [iEthDst v.mac, iType typeIp, iProto 1]⟩
  | ipUs {v x} : v ∈ c.vlans → x ∈ v.vips → c.proactive = true → linkLocal4 x.ip = false →
      RNeeded c ⟨c.l2.tvip, Route.lpmPriority + 29, [iEthDst v.mac, iType typeIp]⟩

theorem rneeded_table {sl : Slot} (h : RNeeded c sl) : sl.table = c.l2.tc ∨ sl.table = c.l2.tvip := by
  cases h <;> first | exact Or.inl rfl | exact Or.inr rfl

theorem rneeded_routing {sl : Slot} (h : RNeeded c sl) : c.routing sl = true := by
  cases h with
  | selArp hv hx => exact rrule_routing (.selArp hv (List.ne_nil_of_mem hx))
  | selIp hv hx => exact rrule_routing (.selIp hv (List.ne_nil_of_mem hx))
  | vipAsk hv hx => exact rrule_routing (.vipAsk hv hx)
  | vipReply hv _ => exact rrule_routing (.vipReply hv)
  | vipArp _ _ => exact rrule_routing .vipArp
  | icmpUs hv _ _ _ => exact rrule_routing (.icmpUs hv)
  | ipUs hv _ _ _ => exact rrule_routing (.ipUs hv)

theorem rrule_permanent (ho : c.Ok) {sl : Slot} {b : Body} (h : RRule c sl b) (ht : sl.table ≠ c.l2.tfib) : b.hard = 0 ∧ b.idle = 0 := by
  cases h with
  | hole => exact absurd rfl ht
  | _ => exact ⟨rfl, rfl⟩

theorem connect_needed {sl : Slot} (h : RNeeded c sl) (now : Int) (up : List Nat) (lag : Nat → L2.LagChange) :
    Puts (c.evMsgs (.connect now up lag)) sl := by
  have hput : ∀ (t : Table) (items : List MatchItem) (prio : Nat) (inst : List Inst), t.flowadd items prio inst =
      put ⟨t.id, prio, items⟩ { inst := trimInst inst, cookie := t.cookie } := fun _ _ _ _ => rfl
  have key : ∀ {v : Route.Vlan} {x : Route.Vip} {t : Table} {items : List MatchItem} {prio : Nat} {inst : List Inst}, v ∈ c.vlans → x ∈ v.vips →
      t.flowadd items prio inst ∈ c.vipNd v x ++ c.fibToVip v x → Puts (c.evMsgs (.connect now up lag)) ⟨t.id, prio, items⟩ := by
    intro v x t items prio inst hv hx hm
    rw [hput] at hm
    exact ⟨_, List.mem_flatMap.2 ⟨v, hv, List.mem_flatMap.2 ⟨x, hx, hm⟩⟩⟩
  cases h with
  | selArp hv hx =>
    refine key hv hx (t := c.l2.classTable) (inst := [.goto (c.l2.table .vip).id]) (List.mem_append.2 (Or.inl ?_))
    exact List.mem_cons_self
  | @selIp v x hv hx =>
    refine key hv hx (t := c.l2.classTable) (inst := [.goto (c.l2.table .ipv4Fib).id]) (List.mem_append.2 (Or.inr ?_))
    exact List.mem_cons_self
  | @vipAsk v x hv hx =>
    refine key hv hx (t := c.l2.table .vip) (inst := [.apply [.output portController]]) (List.mem_append.2 (Or.inl ?_))
    exact List.mem_cons_of_mem _ List.mem_cons_self
  | @vipReply v x hv hx =>
    refine key hv hx (t := c.l2.table .vip) (inst := [.apply [.output portController]]) (List.mem_append.2 (Or.inl ?_))
    exact List.mem_cons_of_mem _ (List.mem_cons_of_mem _ List.mem_cons_self)
  | @vipArp v x hv hx =>
    refine key hv hx (t := c.l2.table .vip) (inst := [.goto c.outId]) (List.mem_append.2 (Or.inl ?_))
    exact List.mem_cons_of_mem _ (List.mem_cons_of_mem _ (List.mem_cons_of_mem _ List.mem_cons_self))
  | @icmpUs v x hv hx hp hl =>
    refine key hv hx (t := c.l2.table .vip) (inst := [.apply [.output portController]]) (List.mem_append.2 (Or.inr ?_))
    refine List.mem_cons_of_mem _ (List.mem_append.2 (Or.inr ?_))
    unfold RCfg.vipIp
    rw [if_pos (by simp [hp, hl])]
    exact List.mem_cons_self
  | @ipUs v x hv hx hp hl =>
    refine key hv hx (t := c.l2.table .vip) (inst := [.apply [.output portController]]) (List.mem_append.2 (Or.inr ?_))
    refine List.mem_cons_of_mem _ (List.mem_append.2 (Or.inr ?_))
    unfold RCfg.vipIp
    rw [if_pos (by simp [hp, hl])]
    exact List.mem_cons_of_mem _ (List.mem_cons_of_mem _ List.mem_cons_self)

/-! ## FIB flows -/

/-- An empty switch. -/
def blank : Switch := ⟨fun _ => none, fun _ => none, fun _ => none⟩

/-- The FIB flows when only the VLANs have been added. -/
def RCfg.start (c : RCfg) : Slot → Option Body := (Route.boot c.mgr c.vlans blank).flows

theorem blank_ok : Route.Blank c.mgr blank := fun _ _ h => by cases h

theorem mgr_sub {v : Route.Vlan} {m : OfMsg} (hm : m ∈ c.mgr.addVlan v) : m ∈ c.addVlan v := by
  unfold Route.Mgr.addVlan at hm
  obtain ⟨x, hx, hm⟩ := List.mem_flatMap.1 hm
  exact List.mem_flatMap.2 ⟨x, hx, List.mem_append.2 (Or.inr (List.mem_cons_of_mem _ (List.mem_append.2 (Or.inl hm))))⟩

/-- Messages of `add_vlan` for the FIB are those of the area `Route`. -/
theorem addVlan_fib (ho : c.Ok) {v : Route.Vlan} {s : Slot} {b : Body} (hm : put s b ∈ c.addVlan v) (hs : s.table = c.l2.tfib) :
    put s b ∈ c.mgr.addVlan v ∧ b = c.mgr.vipBody ∧ ∃ x ∈ v.vips, ∃ rv, s = c.mgr.slot rv (Route.hostNet 32 x.ip) ∨ s = c.mgr.slot rv (x.net 32) := by
  have hF := ho.basic.fib ho.ipv4
  have hFV : c.l2.tfib ≠ c.l2.tvip := (ho.basic.distinctR ho.ipv4).2
  obtain ⟨x, hx, hm⟩ := List.mem_flatMap.1 hm
  have hput : ∀ (t : Table) (items : List MatchItem) (prio : Nat) (inst : List Inst), t.flowadd items prio inst =
      put ⟨t.id, prio, items⟩ { inst := trimInst inst, cookie := t.cookie } := fun _ _ _ _ => rfl
  have hno : ∀ (t : Table) (items : List MatchItem) (prio : Nat) (inst : List Inst), put s b = t.flowadd items prio inst → t.id ≠ c.l2.tfib → False := by
    intro t items prio inst h hne
    rw [hput] at h
    have := (Route.put_inj h).1
    rw [this] at hs
    exact hne hs
  rcases List.mem_append.1 hm with hm | hm
  · exfalso
    simp only [RCfg.vipNd, RCfg.select, RCfg.vipCtrl, List.mem_cons, List.not_mem_nil, or_false] at hm
    rcases hm with h | h | h | h
    · exact hno _ _ _ _ h hF.cls.symm
    · exact hno _ _ _ _ h hFV.symm
    · exact hno _ _ _ _ h hFV.symm
    · exact hno _ _ _ _ h hFV.symm
  · unfold RCfg.fibToVip at hm
    rcases List.mem_cons.1 hm with h | hm
    · exact (hno _ _ _ _ h hF.cls.symm).elim
    · rcases List.mem_append.1 hm with hm | hm
      · refine ⟨List.mem_flatMap.2 ⟨x, hx, hm⟩, ?_⟩
        rw [Route.vipFlows_eq] at hm
        rcases List.mem_cons.1 hm with h | hm
        · exact ⟨(Route.put_inj h).2, x, hx, _, Or.inl (Route.put_inj h).1⟩
        · split at hm
          · obtain ⟨rv, -, h⟩ := List.mem_map.1 hm
            exact ⟨(Route.put_inj h).2.symm, x, hx, rv, Or.inr (Route.put_inj h).1.symm⟩
          · cases hm
      · exfalso
        unfold RCfg.vipIp at hm
        split at hm
        · simp only [RCfg.vipCtrl, RCfg.vipBoth, List.mem_cons, List.not_mem_nil, or_false] at hm
          rcases hm with h | h | h | h <;> exact hno _ _ _ _ h hFV.symm
        · cases hm

/-- After a cold start the FIB is as at the start. -/
theorem connect_fib (ho : c.Ok) {sw : Switch} (h : ∀ s, s.table = c.l2.tfib → s.items ≠ [] → sw.flows s = none) (now : Int) (up : List Nat)
    (lag : Nat → L2.LagChange) {s : Slot} (hs : s.table = c.l2.tfib) (hi : s.items ≠ []) :
    (sw.execAll (c.evMsgs (.connect now up lag))).flows s = c.start s := by
  rw [execAll_flows, h s hs hi]
  have hputs := puts_after (fun m hm => by obtain ⟨s, b, h, -⟩ := evMsgs_rules ho (ev := .connect now up lag) m hm; exact ⟨s, b, h⟩) s none
  have hboot := Route.boot_flows c.mgr c.vlans blank s
  by_cases hp : Puts (c.evMsgs (.connect now up lag)) s
  · obtain ⟨b, h1, h2⟩ := hputs.2 hp
    obtain ⟨v, hv, h1⟩ := List.mem_flatMap.1 h1
    obtain ⟨h3, rfl, -⟩ := addVlan_fib ho h1 hs
    rw [h2]
    exact (hboot.1 ⟨_, List.mem_flatMap.2 ⟨v, hv, h3⟩⟩).symm
  · rw [hputs.1 hp]
    refine (hboot.2 ?_).symm
    rintro ⟨b, hb⟩
    obtain ⟨v, hv, hb⟩ := List.mem_flatMap.1 hb
    exact hp ⟨b, List.mem_flatMap.2 ⟨v, hv, mgr_sub hb⟩⟩

/-- Prefixes that may be routed: proper ones, but not those of the router's own addresses and networks. -/
def RCfg.Routable (c : RCfg) (n : Route.Net) : Prop :=
  Route.NetOk 32 n ∧ ∀ v ∈ c.vlans, ∀ x ∈ v.vips, n ≠ Route.hostNet 32 x.ip ∧ n ≠ x.net 32

/-- Adding VLANs again does not change the FIB. -/
theorem again_fib (ho : c.Ok) {P : Route.Net → Prop} (hP : ∀ n, P n → c.Routable n) {st : Route.St} {F : Slot → Option Body}
    (hi : Route.Inv c.mgr c.vlans P c.start st F) (ev : L2.Ev) {s : Slot} (hs : s.table = c.l2.tfib) :
    slotAfter (c.evMsgs ev) s (F s) = F s := by
  have hputs := puts_after (fun m hm => by obtain ⟨s, b, h, -⟩ := evMsgs_rules ho (ev := ev) m hm; exact ⟨s, b, h⟩) s (F s)
  by_cases hp : Puts (c.evMsgs ev) s
  · obtain ⟨b, h1, h2⟩ := hputs.2 hp
    obtain ⟨v, hv, h1⟩ := evMsgs_sub h1
    obtain ⟨h3, rfl, x, hx, rv, hsl⟩ := addVlan_fib ho h1 hs
    have hout : F s = c.start s := by
      refine hi.outside s hs ?_
      rintro ⟨rv', dst, hd, he⟩
      have hno := (hP dst hd).2 v hv x hx
      rcases hsl with h | h
      · exact hno.1 (Route.slot_net (he.symm.trans h)).1
      · exact hno.2 (Route.slot_net (he.symm.trans h)).1
    rw [h2, hout]
    exact ((Route.boot_flows c.mgr c.vlans blank s).1 ⟨_, List.mem_flatMap.2 ⟨v, hv, h3⟩⟩).symm
  · exact hputs.1 hp

/-- A cold start: neighbours are forgotten, routes are not, and the FIB is as at the start. -/
theorem inv_restart (ho : c.Ok) {P : Route.Net → Prop} {st : Route.St} {F : Slot → Option Body}
    (hi : Route.Inv c.mgr c.vlans P c.start st F) : Route.Inv c.mgr c.vlans P c.start (resetCaches st) c.start := by
  have hnf : ∀ rv dst b, c.start (c.mgr.slot rv dst) = some b → ¬ c.mgr.forwards b := by
    intro rv dst b h
    obtain ⟨_, _, h1 | ⟨rfl, _⟩⟩ := Route.boot_shape ho.vips blank_ok h rfl
    · unfold Route.Mgr.slot Route.Mgr.routePriority at h1
      simp only at h1
      omega
    · intro hf
      unfold Route.Mgr.forwards Route.Mgr.vipBody instGoto at hf
      simp only [List.filterMap_cons, List.filterMap_nil, List.head?_cons, Option.some.injEq] at hf
      exact ho.conf.tables hf.symm
  refine ⟨hi.idx, hi.uniq, ?_, ?_, ?_, ?_, hi.conn, ?_, hi.allowed, fun _ _ _ => rfl⟩
  · intro v _ gw n h; cases h
  · intro v _ dst gw mac rv _ h; cases h
  · intro rv dst b _ h hf; exact absurd hf (hnf rv dst b h)
  · intro v _ ip rv b _ _ _ h; exact hnf rv _ b h
  · intro v hv gw h
    rcases h with h | h | h
    · exact hi.conn2 v hv gw (Or.inl h)
    · exact hi.conn2 v hv gw (Or.inr (Or.inl h))
    · cases h

end Faucet.Routed
