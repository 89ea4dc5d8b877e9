import Verif.L2.UEvents
import Verif.Flood.Table

/-! # One standalone switch without special ports: invariants of runs -/

namespace Faucet.L2
open Faucet.OF
open Faucet.Learn (iInPort iEthDst iEthSrc iVlan host CInv)
open Faucet.HostCache (Port Entry)

variable {c : Cfg} {K : Nat → Prop} {n : Option Nat} {md : Bool}

/-! ## Flooding -/

theorem fvlan_numbers (d : Nat → Dyn) (v : LVlan) : (c.fvlan d v).ports.map Flood.FPort.number =
    (c.ports.filter (fun p => p.tagged.contains v.vid)).map (·.number) ++ (c.ports.filter (fun p => p.native == some v.vid)).map (·.number) := by
  simp [Flood.FVlan.ports, Cfg.fvlan, List.map_map, Function.comp_def, fport]

theorem fvlan_wf (hw : c.WF) (d : Nat → Dyn) (v : LVlan) : Flood.WF (c.fvlan d v) where
  nodup := by
    rw [fvlan_numbers, List.nodup_append]
    refine ⟨hw.nodup.sublist (List.filter_sublist.map _), hw.nodup.sublist (List.filter_sublist.map _), ?_⟩
    intro x hx y hy hxy
    obtain ⟨p, hp, rfl⟩ := List.mem_map.1 hx
    obtain ⟨q, hq, rfl⟩ := List.mem_map.1 hy
    obtain ⟨hp1, hp2⟩ := List.mem_filter.1 hp
    obtain ⟨hq1, hq2⟩ := List.mem_filter.1 hq
    obtain rfl := port_inj hw hp1 hq1 hxy
    exact hw.once p hp1 v.vid (by simpa using hq2) (by simpa using hp2)
  notInPort := by
    intro q hq
    obtain ⟨p, hp, -, rfl⟩ := mem_fvlan_ports hq
    have := hw.real p hp
    show p.number ≠ portInPort
    unfold RealPort at this
    unfold portInPort; omega
  mirrors := by
    intro q hq m hm
    obtain ⟨p, hp, hpin, rfl⟩ := mem_fvlan_ports hq
    obtain ⟨h1, h2⟩ := hw.mirrors p hp _ hpin m hm
    refine ⟨by unfold RealPort at h1; unfold portInPort; omega, ?_⟩
    intro r hr hrm
    obtain ⟨p', hp', hin, rfl⟩ := mem_fvlan_ports hr
    obtain ⟨h3, h4⟩ := h2 p' hp' hrm
    rcases hin with h | h
    · rw [h3] at h; cases h
    · rw [h4] at h; cases h

theorem fport_eligible (hb : c.Basic) {d : Nat → Dyn} {v : LVlan} {q : LPort} (hq : q ∈ c.ports) (i : Option Flood.FPort) (ae er : Bool) :
    Flood.Eligible (c.fvlan d v) i ae er (fport d q) where
  lag := fun h => absurd (hb.lacp q hq) h
  native := fun _ => Or.inl rfl
  ext := fun h => by
    have : q.loopProtectExternal = true := h
    rw [(hb.loop q hq).2] at this; cases this
  restr := fun _ => hb.restricted q hq

theorem fport_member (hb : c.Basic) {d : Nat → Dyn} {v : LVlan} {q : LPort} (hq : q ∈ c.ports) (hin : q.In v.vid) (eu : Bool) :
    Flood.FloodMember (c.fvlan d v) eu (fport d q) := ⟨fvlan_ports_mem hq hin, fun _ => hb.portUnicast q hq⟩

theorem fport_ne (hw : c.WF) {d : Nat → Dyn} {p q : LPort} (hp : p ∈ c.ports) (hq : q ∈ c.ports) (h : q ≠ p) : fport d q ≠ fport d p := by
  intro he
  exact h (port_inj hw hq hp (congrArg Flood.FPort.number he))

theorem fport_due (hw : c.WF) (hb : c.Basic) {d : Nat → Dyn} {v : LVlan} {p q : LPort} (hp : p ∈ c.ports) (hq : q ∈ c.ports)
    (hin : q.In v.vid) (hne : q ≠ p) (eu ae er : Bool) : Flood.Due (c.fvlan d v) (fport d p) eu ae er (fport d q) :=
  ⟨fvlan_ports_mem hq hin, fport_ne hw hp hq hne, fport_member hb hq hin eu, fport_eligible hb hq _ _ _⟩

/-! ## Rules that are added -/

theorem adds_of {ms : List OfMsg} {sl : Slot} {m : OfMsg} (h : m ∈ ms) (hm : ∃ f, m = .flow f ∧ f.cmd = .add ∧ f.slot = sl) : Adds ms sl := by
  obtain ⟨f, rfl, h1⟩ := hm
  exact ⟨f, h, h1⟩

theorem addVlan_floodP (hw : c.WF) (hb : c.Basic) (d : Nat → Dyn) (cold : Bool) {v : LVlan} (hv : v ∈ c.vlans) {r : Flood.Row}
    (hr : r ∈ c.flood.rows) (hcomb : c.combinatorial = true) {p q : LPort} (hp : p ∈ c.ports) (hup : (d p.number).physUp = true)
    (hpin : p.In v.vid) (hq : q ∈ c.ports) (hqin : q.In v.vid) (hne : q ≠ p) :
    Adds (c.addVlan d cold v) ⟨c.tf, r.priority + 1, r.items v.vid (some p.number)⟩ := by
  have hg : c.flood.useGroups = false := hb.noGroups
  have hc : c.flood.combinatorial = true := hcomb
  have hacts : ((c.fvlan d v).portActs r.unicast (fport d p) false r.ethType.isNone).1 ≠ [] := by
    refine Flood.due_has_acts (fvlan_wf hw d v) (fvlan_ports_mem hp hpin) hup
      (k := ⟨fun f => if f = fInPort then some p.number else none, [(v.vid, 0)]⟩) ⟨⟨0, [], rfl⟩, ?_⟩ (fport_due hw hb hp hq hqin hne _ _ _)
    simp [fport]
  have : Adds (Flood.maskRules c.flood .add cold (c.fvlan d v) r) ⟨c.tf, r.priority + 1, r.items v.vid (some p.number)⟩ := by
    unfold Flood.maskRules
    rw [if_pos (by simp [hc])]
    refine adds_of (m := Flood.portRule c.flood .add (c.fvlan d v) r (fport d p)
      ((c.fvlan d v).portActs r.unicast (fport d p) false r.ethType.isNone).1) (List.mem_flatMap.2 ⟨fport d p, ?_, ?_⟩) ⟨_, rfl, rfl, rfl⟩
    · unfold Flood.floodPorts
      split
      · exact List.mem_filter.2 ⟨fvlan_ports_mem hp hpin, hb.portUnicast p hp⟩
      · exact fvlan_ports_mem hp hpin
    · unfold Flood.combinatorialRule
      simp only [if_neg hacts, List.mem_singleton]
  refine this.mono ?_
  intro m hm
  simp only [Cfg.addVlan, Flood.floodRules, Flood.multioutRules, List.mem_append]
  exact Or.inr (Or.inl (List.mem_flatMap.2 ⟨r, row_used hb d hv hr, by simpa using hm⟩))

theorem defaults_adds (hb : c.Basic) {x : Nat × List Inst} (hx : x ∈ defaultRules c.useClassification c.ipv4) : Adds c.defaults ⟨x.1, 0, []⟩ := by
  refine adds_of (m := (Table.mk x.1 0).flowadd [] 0 x.2) ?_ ⟨_, rfl, rfl, rfl⟩
  unfold Cfg.defaults
  rw [hb.conf, default_rules]
  exact List.mem_append_right _ (List.mem_map.2 ⟨x, hx, rfl⟩)

theorem connect_adds (hw : c.WF) (hb : c.Basic) (d0 : Nat → Dyn) (up : List Nat) (lag : Nat → LagChange) {sl : Slot}
    (h : Needed c (fun i => up.contains i) sl) : Adds (c.connectMsgs (c.connectDyn d0 up lag) up lag) sl := by
  obtain ⟨h1, h2, h3, h4⟩ := hb.ids
  have hdef : ∀ x ∈ defaultRules c.useClassification c.ipv4, Adds (c.connectMsgs (c.connectDyn d0 up lag) up lag) ⟨x.1, 0, []⟩ := by
    intro x hx
    refine (defaults_adds hb hx).mono ?_
    intro m hm
    simp only [Cfg.connectMsgs, List.mem_append]
    tauto
  have hvl : ∀ v ∈ c.vlans, ∀ m ∈ c.addVlan (c.connectDyn d0 up lag) true v, m ∈ c.connectMsgs (c.connectDyn d0 up lag) up lag := by
    intro v hv m hm
    simp only [Cfg.connectMsgs, List.mem_append]
    exact Or.inr (List.mem_flatMap.2 ⟨v, hv, hm⟩)
  have hport : ∀ p ∈ c.ports, p.enabled = true → up.contains p.number = true → ∀ m ∈ c.portAdd p,
      m ∈ c.connectMsgs (c.connectDyn d0 up lag) up lag := by
    intro p hp he hu m hm
    simp only [Cfg.connectMsgs, List.mem_append]
    refine Or.inl (Or.inr (List.mem_flatMap.2 ⟨p, hp, ?_⟩))
    unfold Cfg.connectPort
    rw [if_pos (by rw [he, hu]; rfl)]
    exact List.mem_append_left _ hm
  cases h with
  | cls hk =>
    have := hdef (c.tc, [.goto c.ts]) (by
      unfold defaultRules
      rw [h1, h2, hk, class_on]
      simp)
    exact this
  | src => exact hdef (c.ts, [.goto c.td]) (by unfold defaultRules; rw [h2, h3]; simp)
  | dst => exact hdef (c.td, [.goto c.tf]) (by unfold defaultRules; rw [h3, h4]; simp)
  | unknown hv => exact (addVlan_unknown hb _ true _).mono (hvl _ hv)
  | floodV hv hr hc => exact (addVlan_floodV hb _ true hv hr hc).mono (hvl _ hv)
  | untagged hp he hu hn => exact (portAdd_untagged hb hn).mono (hport _ hp he hu)
  | tagged hp he hu hn => exact (portAdd_tagged hb hn).mono (hport _ hp he hu)
  | @floodP v r p q hv hr hc hp he hu hin hq hqin hne =>
    refine (addVlan_floodP hw hb _ true hv hr hc hp ?_ hin hq hqin hne).mono (hvl _ hv)
    unfold Cfg.connectDyn
    rw [find_of_mem hw hp]
    simp only
    have hu : up.contains p.number = true := hu
    rw [if_pos hu, if_pos he, change_none hb hp]
    rfl

theorem vlan_of_mem (hw : c.WF) {v : LVlan} (h : v ∈ c.vlans) : c.vlan v.vid = some v := by
  cases hf : c.vlan v.vid with
  | none => have := List.find?_eq_none.1 hf v h; simp at this
  | some w =>
    obtain ⟨h1, h2⟩ := vlan_some hf
    rw [List.inj_on_of_nodup_map hw.vnodup h1 h h2]

theorem vlansOf_mem (hw : c.WF) {p : LPort} {v : LVlan} (h : v ∈ c.vlans) (hin : p.In v.vid) : v ∈ c.vlansOf p := by
  refine List.mem_filterMap.2 ⟨v.vid, ?_, vlan_of_mem hw h⟩
  rcases hin with h | h <;> simp [LPort.vids, h]

theorem Needed.mono {u u' : Nat → Bool} (hu : ∀ i, u' i = true → u i = true) {sl : Slot} (h : Needed c u' sl) : Needed c u sl := by
  cases h with
  | cls h => exact .cls h
  | src => exact .src
  | dst => exact .dst
  | unknown h => exact .unknown h
  | floodV h1 h2 h3 => exact .floodV h1 h2 h3
  | untagged h1 h2 h3 h4 => exact .untagged h1 h2 (hu _ h3) h4
  | tagged h1 h2 h3 h4 => exact .tagged h1 h2 (hu _ h3) h4
  | floodP h1 h2 h3 h4 h5 h6 h7 h8 h9 h10 => exact .floodP h1 h2 h3 h4 h5 (hu _ h6) h7 h8 h9 h10

/-- A port that comes up: what is needed now is added, or was needed before. -/
theorem up_needed (hw : c.WF) (hb : c.Basic) {u : Nat → Bool} {j : Nat} {sl : Slot} (h : Needed c (fun i => i == j || u i) sl) :
    Needed c u sl ∨ ∃ p ∈ c.ports, p.number = j ∧ ∀ (d : Nat → Dyn) l, (d j).physUp = true → Adds (c.upMsgs d p l) sl := by
  have key : ∀ i, (i == j || u i) = true → i = j ∨ u i = true := fun i h => by simpa using h
  have hport : ∀ (d : Nat → Dyn) l (p : LPort), p ∈ c.ports → p.enabled = true → ∀ m ∈ c.portAdd p, m ∈ c.upMsgs d p l := by
    intro d l p hp he m hm
    unfold Cfg.upMsgs
    rw [if_pos he]
    exact List.mem_append_left _ (List.mem_append_left _ hm)
  cases h with
  | cls h => exact Or.inl (.cls h)
  | src => exact Or.inl .src
  | dst => exact Or.inl .dst
  | unknown h => exact Or.inl (.unknown h)
  | floodV h1 h2 h3 => exact Or.inl (.floodV h1 h2 h3)
  | untagged h1 h2 h3 h4 =>
    rcases key _ h3 with h | h
    · exact Or.inr ⟨_, h1, h, fun d l _ => (portAdd_untagged hb h4).mono (hport d l _ h1 h2)⟩
    · exact Or.inl (.untagged h1 h2 h h4)
  | tagged h1 h2 h3 h4 =>
    rcases key _ h3 with h | h
    · exact Or.inr ⟨_, h1, h, fun d l _ => (portAdd_tagged hb h4).mono (hport d l _ h1 h2)⟩
    · exact Or.inl (.tagged h1 h2 h h4)
  | floodP h1 h2 h3 h4 h5 h6 h7 h8 h9 h10 =>
    rcases key _ h6 with h | h
    · refine Or.inr ⟨_, h4, h, fun d l hd => ?_⟩
      refine (addVlan_floodP hw hb d false h1 h2 h3 h4 (by rw [h]; exact hd) h7 h8 h9 h10).mono ?_
      intro m hm
      unfold Cfg.upMsgs
      rw [if_pos h5]
      exact List.mem_append_right _ (List.mem_flatMap.2 ⟨_, vlansOf_mem hw h1 h7, hm⟩)
    · exact Or.inl (.floodP h1 h2 h3 h4 h5 h h7 h8 h9 h10)

theorem needed_permanent (hb : c.Basic) {u : Nat → Bool} {sl : Slot} (hn : Needed c u sl) {inst : List Inst} {h i : Nat}
    (hr : URule c K sl inst h i) : h = 0 ∧ i = 0 := by
  obtain ⟨hc0, hs0, hd0, hf0, hsd, hsf, hdf, hcd, hcf, hcs, -, hsA, hdA, hfA, -⟩ := hb.distinct
  cases hr with
  | src hk =>
    exfalso
    generalize hsl : (⟨c.ts, matchPriority - 1, _⟩ : Slot) = sl at hn
    cases hn <;> simp only [Slot.mk.injEq] at hsl
    · exact absurd hsl.2.1 (by decide)
    · exact absurd hsl.2.1 (by decide)
    · exact absurd hsl.2.1 (by decide)
    · exact absurd hsl.2.1 (by decide)
    · exact hsf hsl.1
    · exact hs0 hsl.1
    · exact hs0 hsl.1
    · exact hsf hsl.1
  | ban hk =>
    exfalso
    generalize hsl : (⟨c.ts, lowPriority + 1, _⟩ : Slot) = sl at hn
    cases hn <;> simp only [Slot.mk.injEq] at hsl
    · exact absurd hsl.2.1 (by decide)
    · exact absurd hsl.2.1 (by decide)
    · exact absurd hsl.2.1 (by decide)
    · exact absurd hsl.2.1 (by decide)
    · exact hsf hsl.1
    · exact hs0 hsl.1
    · exact hs0 hsl.1
    · exact hsf hsl.1
  | dst hq hin hk =>
    exfalso
    generalize hsl : (⟨c.td, matchPriority, _⟩ : Slot) = sl at hn
    cases hn <;> simp only [Slot.mk.injEq] at hsl
    · exact absurd hsl.2.1 (by decide)
    · exact absurd hsl.2.1 (by decide)
    · exact absurd hsl.2.1 (by decide)
    · exact absurd hsl.2.1 (by decide)
    · exact hdf hsl.1
    · exact hd0 hsl.1
    · exact hd0 hsl.1
    · exact hdf hsl.1
  | _ => exact ⟨rfl, rfl⟩

/-! ## Destination rules -/

def NoTouch (sl : Slot) : OfMsg → Prop
  | .flow f => f.slot = sl → f.cmd ≠ .add ∧ f.cmd ≠ .modifyStrict
  | _ => True

theorem onFlow_origin {sl : Slot} {m : OfMsg} (hm : NoTouch sl m) {b : Option Body} {x : Body} (h : m.onFlow sl b = some x) : b = some x := by
  cases m with
  | flow f =>
    cases hc : f.cmd with
    | add =>
      simp only [OfMsg.onFlow, hc] at h
      split at h
      · rename_i hs; exact absurd hc (hm hs).1
      · exact h
    | modifyStrict =>
      simp only [OfMsg.onFlow, hc] at h
      split at h
      · rename_i hs; exact absurd hc (hm hs).2
      · exact h
    | delete => simp only [OfMsg.onFlow, hc] at h; exact (Option.filter_eq_some_iff.1 h).1
    | deleteStrict => simp only [OfMsg.onFlow, hc] at h; exact (Option.filter_eq_some_iff.1 h).1
  | _ => exact (Option.filter_eq_some_iff.1 h).1

theorem exec_origin {sl : Slot} {out : List OfMsg} (hm : ∀ m ∈ out, NoTouch sl m) {sw : Switch} {x : Body}
    (h : (sw.execAll out).flows sl = some x) : sw.flows sl = some x := by
  induction out generalizing sw with
  | nil => exact h
  | cons m ms ih =>
    have := ih (fun y hy => hm y (List.mem_cons_of_mem _ hy)) (sw := sw.exec m) h
    exact onFlow_origin (hm m List.mem_cons_self) this

theorem noTouch_u (hb : c.Basic) {vid m' : Nat} {m : OfMsg} (h : MsgU c (fun _ => False) n md m) :
    NoTouch (Learn.dstSlot c.learn vid m') m := by
  obtain ⟨hc0, hs0, hd0, hf0, hsd, hsf, hdf, hcd, hcf, hcs, -, hsA, hdA, hfA, -⟩ := hb.distinct
  cases m with
  | flow f =>
    intro hs
    have ht : f.table = c.td := congrArg Slot.table hs
    constructor
    · intro hc
      have hr := h.1 hc
      rw [hs] at hr
      generalize hsl : Learn.dstSlot c.learn vid m' = sl at hr
      generalize f.inst = a1, f.hard = a2, f.idle = a3 at hr
      have h1 : c.td = sl.table := congrArg Slot.table hsl
      have h2 : matchPriority = sl.priority := congrArg Slot.priority hsl
      cases hr with
      | dVlan => exact hd0 h1
      | dClass _ => exact hcd h1.symm
      | dSrc => exact hsd h1.symm
      | dDst => exact absurd (show matchPriority = 0 from h2) (by decide)
      | dFlood => exact hdf h1
      | dFib h => exact (hb.fib h).dst h1.symm
      | dVip h => exact (hb.vip h).dst h1.symm
      | untagged => exact hd0 h1
      | tagged => exact hd0 h1
      | untagMiss => exact hd0 h1
      | lldp => exact hd0 h1
      | outOnly => exact hd0 h1
      | bcast => exact hcd h1.symm
      | ectp => exact hcd h1.symm
      | spoof => exact hcd h1.symm
      | unknown => exact hsd h1.symm
      | src hk => exact hk
      | ban => exact hsd h1.symm
      | dst _ _ hk => exact hk
      | reserved => exact hdf h1
      | floodV => exact hdf h1
      | floodP => exact hdf h1
    · intro hc
      exact hdf (ht.symm.trans (h.2.1 hc).2.1)
  | _ => trivial

theorem dstOk_learn (hb : c.Basic) {sh : List OfMsg → List OfMsg} (hsh : ∀ l, (sh l).Perm l) {bar : Bool} {st st' : Learn.St} {sw : Switch}
    (hi : CInv c.learn st) (hd : Learn.DstOk c.learn ⟨st, sw⟩) {ev : Learn.Ev} (hv : ev.vidOk) (hc : ∀ now, ev ≠ .coldStart now)
    {ms out : List OfMsg} (hr : Learn.react c.learn st ev = some (ms, st')) (ho : FlowReorder.reorder sh bar ms = some out) :
    Learn.DstOk c.learn ⟨st', sw.execAll out⟩ := by
  intro vid m e b hvid he hbb
  obtain ⟨out', h3, h4⟩ := Learn.send (cfg := c.learn) hsh bar (Learn.react_simple (learn_wf c) hi hr hc)
  rw [ho] at h3; cases h3
  obtain ⟨h5, h6⟩ := Learn.dst_step (learn_wf c) (fun n => (hostPort_plain hb n).2.1) hi hv hr vid m e hvid he
  rcases (h4 sw).1 _ b hbb with ⟨f, hf, hfc, hfs, hfb⟩ | ⟨hold, _, hno⟩
  · obtain ⟨q, hq, hsp⟩ := h5 f hf hfc hfs
    exact ⟨q, by rw [← hfb]; exact hq, hsp⟩
  · rcases h6 with ⟨f, hf, hfc, hfs⟩ | ⟨e0, he0, hsp⟩
    · exact absurd hfs (hno f hf hfc)
    · obtain ⟨q, hq, hsp'⟩ := hd vid m e0 b hvid he0 hold
      exact ⟨q, hq, hsp'.trans hsp⟩

/-- Hosts are not moved, destination rules not touched. -/
theorem dstOk_still {st st' : Learn.St} {sw : Switch} (hd : Learn.DstOk c.learn ⟨st, sw⟩)
    (hh : ∀ vid m e, host st' vid m = some e → host st vid m = some e) {out : List OfMsg}
    (hm : ∀ vid m, ∀ x ∈ out, NoTouch (Learn.dstSlot c.learn vid m) x) : Learn.DstOk c.learn ⟨st', sw.execAll out⟩ := by
  intro vid m e b hvid he hb
  exact hd vid m e b hvid (hh vid m e he) (exec_origin (hm vid m) hb)

theorem dstOk_event (hw : c.WF) (hb : c.Basic) {s : Ctl} {sw : Switch} (hi : CInv c.learn s.learn) (ho : HostsOk c s.learn)
    (hd : Learn.DstOk c.learn ⟨s.learn, sw⟩) {ev : Ev} {sh : List OfMsg → List OfMsg} (hsh : ∀ l, (sh l).Perm l) {bar : Bool}
    {ms out : List OfMsg} {s' : Ctl} (hr : c.react s ev = some (ms, s')) (hout : FlowReorder.reorder sh bar ms = some out) :
    Learn.DstOk c.learn ⟨s'.learn, sw.execAll out⟩ := by
  have hstill : ∀ {st' : Learn.St}, (∀ vid m e, host st' vid m = some e → host s.learn vid m = some e) →
      (∀ m ∈ ms, MsgU c (fun _ => False) ev.gone true m) → Learn.DstOk c.learn ⟨st', sw.execAll out⟩ := by
    intro st' h1 h2
    refine dstOk_still hd h1 ?_
    intro vid m
    exact out_u hsh hout trivial (fun x hx => noTouch_u hb (h2 x hx))
  cases ev with
  | connect now up lag =>
    simp only [Cfg.react, Option.some.injEq, Prod.mk.injEq] at hr
    obtain ⟨-, rfl⟩ := hr
    intro vid m e b _ he
    simp [host, Learn.coldStart, HostCache.resetCaches, HostCache.cachedHost] at he
  | disconnect now lag =>
    simp only [Cfg.react, Option.map_eq_some_iff, Prod.mk.injEq] at hr
    obtain ⟨st, hst, rfl, rfl⟩ := hr
    have hrem := forgetAll_removal c.ports (cinv_update now c.ports hi) hst
    refine hstill ?_ (fun m hm => by cases hm)
    intro vid m e he
    rw [← host_update now c.ports s.learn vid m]
    exact hrem.keep vid m e he
  | packetIn now k =>
    simp only [Cfg.react] at hr
    split at hr
    · rename_i vid hv
      simp only [Option.map_eq_some_iff] at hr
      obtain ⟨⟨ms', st⟩, h1, h2⟩ := hr
      simp only [Ctl.withLearn, Prod.mk.injEq] at h2
      obtain ⟨rfl, rfl⟩ := h2
      obtain ⟨-, hvl, -⟩ := accepted_known hv
      refine dstOk_learn hb hsh hi hd (ev := .packet now k.port vid k.src) ?_ (by intro now h; cases h) h1 hout
      obtain ⟨v, hv'⟩ := Option.isSome_iff_exists.1 hvl
      obtain ⟨h3, h4⟩ := vlan_some hv'
      show vid < 4096
      rw [← h4]; exact hw.vid v h3
    · simp only [Option.some.injEq, Prod.mk.injEq] at hr
      obtain ⟨rfl, rfl⟩ := hr
      exact hstill (fun _ _ _ h => h) (fun m hm => by cases hm)
  | expire now vid =>
    simp only [Cfg.react] at hr
    split at hr
    · simp only [Option.map_eq_some_iff] at hr
      obtain ⟨⟨ms', st⟩, h1, h2⟩ := hr
      simp only [Ctl.withLearn, Prod.mk.injEq] at h2
      obtain ⟨rfl, rfl⟩ := h2
      exact dstOk_learn hb hsh hi hd (ev := .expire now vid) trivial (by intro now h; cases h) h1 hout
    · simp only [Option.some.injEq, Prod.mk.injEq] at hr
      obtain ⟨rfl, rfl⟩ := hr
      exact hstill (fun _ _ _ h => h) (fun m hm => by cases hm)
  | portUp now j lag =>
    simp only [Cfg.react] at hr
    split at hr
    · rename_i p hp
      simp only [Option.some.injEq, Prod.mk.injEq] at hr
      obtain ⟨rfl, rfl⟩ := hr
      exact hstill (fun _ _ _ h => h) (fun m hm => msgU_md (upMsgs_u hb _ (find_some hp).1 _ hm))
    · simp only [Option.some.injEq, Prod.mk.injEq] at hr
      obtain ⟨rfl, rfl⟩ := hr
      exact hstill (fun _ _ _ h => h) (fun m hm => by cases hm)
  | portDown now j lag =>
    simp only [Cfg.react] at hr
    split at hr
    · rename_i p hp
      simp only [Option.some.injEq, Prod.mk.injEq] at hr
      obtain ⟨rfl, rfl⟩ := hr
      have hp' := (find_some hp).1
      refine hstill (fun _ _ _ h => h) (fun m hm => ?_)
      show MsgU c _ (some j) true m
      rw [← (find_some hp).2]
      exact downMsgs_u hb _ hp' _ hm
    · simp only [Option.some.injEq, Prod.mk.injEq] at hr
      obtain ⟨rfl, rfl⟩ := hr
      exact hstill (fun _ _ _ h => h) (fun m hm => by cases hm)
  | lag j sel act =>
    simp only [Cfg.react] at hr
    split at hr
    · rename_i p hp
      rw [if_neg (by simp [hb.lacp p (find_some hp).1])] at hr
      simp only [Option.some.injEq, Prod.mk.injEq] at hr
      obtain ⟨rfl, rfl⟩ := hr
      exact hstill (fun _ _ _ h => h) (fun m hm => by cases hm)
    · simp only [Option.some.injEq, Prod.mk.injEq] at hr
      obtain ⟨rfl, rfl⟩ := hr
      exact hstill (fun _ _ _ h => h) (fun m hm => by cases hm)
  | srcRemoved vid j m =>
    simp only [Cfg.react, Option.map_eq_some_iff] at hr
    obtain ⟨⟨ms', st⟩, h1, h2⟩ := hr
    simp only [Ctl.withLearn, Prod.mk.injEq] at h2
    obtain ⟨rfl, rfl⟩ := h2
    exact dstOk_learn hb hsh hi hd (ev := .srcRemoved vid j m) trivial (by intro now h; cases h) h1 hout
  | dstRemoved now vid m =>
    simp only [Cfg.react, Option.map_eq_some_iff] at hr
    obtain ⟨⟨ms', st⟩, h1, h2⟩ := hr
    simp only [Ctl.withLearn, Prod.mk.injEq] at h2
    obtain ⟨rfl, rfl⟩ := h2
    by_cases hv : vid < 4096
    · exact dstOk_learn hb hsh hi hd (ev := .dstRemoved now vid m) hv (by intro now h; cases h) h1 hout
    · have hno : host s.learn vid m = none := by
        cases he : host s.learn vid m with
        | none => rfl
        | some e =>
          obtain ⟨q, hq, -, hin⟩ := ho vid m e he
          exact absurd (in_small hw hq hin) hv
      obtain ⟨msgs, st'', h3, h4, -⟩ := Learn.dstRemoved_effect (cfg := c.learn) (st := s.learn) now vid m
      rw [h1] at h3
      cases h3
      have hhost : ∀ vid m, host st vid m = host s.learn vid m := fun vid m => by unfold host; rw [h4]
      refine hstill (fun v x e he => by rw [← hhost]; exact he) ?_
      have hms : ms' = [] := by
        simp only [Learn.react] at h1
        split at h1
        · simp only [Option.some.injEq] at h1
          unfold Learn.dstRuleExpire at h1
          have hno' : HostCache.cachedHost (s.learn.vlan vid).hosts m = none := hno
          rw [hno'] at h1
          exact (congrArg Prod.fst h1).symm
        · cases h1; rfl
      rw [hms]
      intro x hx; cases hx

/-! ## Runs -/

/-- The addresses of hosts that FAUCET was told of. -/
def Sys.Told (s : Sys) (m : Nat) : Prop := goodSource m = true ∧ s.Heard m

structure DInv (c : Cfg) (u : Nat → Bool) (s : Sys) : Prop where
  flows : UFlows c s.Told s.sw
  present : ∀ sl, Needed c u sl → s.sw.flows sl ≠ none
  dst : Learn.DstOk c.learn ⟨s.ctl.learn, s.sw⟩
  hosts : HostsK s.Told s.ctl.learn

theorem not_modify {m : OfMsg} {f : FlowMod} (hm : m = .flow f)
    (h : m = (⟨tableAll, 0⟩ : Table).flowdel [] ∨ MsgU c K n false m) : f.cmd ≠ .modifyStrict := by
  rcases h with h | h
  · rw [hm] at h
    have := OfMsg.flow.inj h
    rw [this]; decide
  · rw [hm] at h
    intro hc
    exact absurd (h.2.1 hc).1 (by decide)

theorem connect_switch (hw : c.WF) (hb : c.Basic) {K : Nat → Prop} {sh : List OfMsg → List OfMsg} (hsh : ∀ l, (sh l).Perm l) {bar : Bool}
    (d0 : Nat → Dyn) {up : List Nat} {lag : Nat → LagChange} {out : List OfMsg}
    (hout : FlowReorder.reorder sh bar (c.connectMsgs (c.connectDyn d0 up lag) up lag) = some out) (sw : Switch) :
    UFlows c K (sw.execAll out) ∧ ∀ sl, Needed c (fun i => up.contains i) sl → (sw.execAll out).flows sl ≠ none := by
  have hmsg : ∀ m ∈ c.connectMsgs (c.connectDyn d0 up lag) up lag, m = (⟨tableAll, 0⟩ : Table).flowdel [] ∨ MsgU c K none false m :=
    fun m hm => connect_u hb _ up lag hm
  constructor
  · have hm : ∀ m ∈ out, AddU c K m := by
      refine out_u hsh hout trivial ?_
      intro m hm
      rcases hmsg m hm with rfl | h
      · exact ⟨fun h => by simp at h, fun h => by simp at h⟩
      · exact h.add
    have hd : (⟨tableAll, 0⟩ : Table).flowdel [] ∈ c.connectMsgs (c.connectDyn d0 up lag) up lag := by simp [Cfg.connectMsgs, Cfg.defaults]
    obtain ⟨d', h1, h2⟩ := global_stays hout hd (by decide)
    have hwipe : ∀ sl b, d'.onFlow sl b = none := by
      intro sl b
      obtain ⟨g, rfl, hc, ht, -, hi, -, -, ho⟩ := FlowReorder.strKey_flow h2
      have hc : g.cmd = .delete := hc
      unfold OfMsg.onFlow
      simp only [hc]
      refine Option.filter_eq_none_iff.2 ?_
      intro x _
      have ht : g.table = tableAll := ht
      have hi : g.mtch.items = [] := hi
      have ho : g.outPort = none := ho
      simp [FlowMod.kills, hc, FlowMod.tableOk, ht, hi, coversItems, FlowMod.outPortOk, ho]
    obtain ⟨a, b, rfl⟩ := List.append_of_mem h1
    have : sw.execAll (a ++ d' :: b) = ((sw.execAll a).exec d').execAll b := by simp [Switch.execAll]
    rw [this]
    refine exec_u hb (fun m h => hm m (by simp [h])) ?_
    intro sl x hx
    simp [Switch.exec, hwipe] at hx
  · intro sl hn
    exact adds_present hsh hout (fun f hf => not_modify rfl (hmsg _ hf)) (connect_adds hw hb d0 up lag hn) sw

theorem hosts_cold {now : Int} {st : Learn.St} (P : Nat → Nat → Entry → Prop) : ∀ vid m e, host (Learn.coldStart st now) vid m = some e → P vid m e := by
  intro vid m e he
  simp [host, Learn.coldStart, HostCache.resetCaches, HostCache.cachedHost] at he

/-- The switch connects, whatever was there before. -/
theorem dinv_connect (hw : c.WF) (hb : c.Basic) {ctl0 ctl : Ctl} {sw : Switch} {seen : PacketIn → Prop} {now : Int} {up : List Nat}
    {lag : Nat → LagChange} {sh : List OfMsg → List OfMsg} (hsh : ∀ l, (sh l).Perm l) {bar : Bool} {ms out : List OfMsg}
    (hr : c.react ctl0 (.connect now up lag) = some (ms, ctl)) (hout : FlowReorder.reorder sh bar ms = some out) :
    DInv c (fun i => up.contains i) ⟨ctl, sw.execAll out, seen⟩ := by
  simp only [Cfg.react, Option.some.injEq, Prod.mk.injEq] at hr
  obtain ⟨rfl, rfl⟩ := hr
  have hs := connect_switch hw hb (K := Sys.Told ⟨ctl0, sw.execAll out, seen⟩) hsh ctl0.dyn hout sw
  exact ⟨hs.1, hs.2, fun vid m e b _ he => hosts_cold (P := fun _ _ _ => _) vid m e he, hosts_cold _⟩

theorem dinv_event (hw : c.WF) (hb : c.Basic) {s : Sys} {u : Nat → Bool} {ev : Ev} {ms out : List OfMsg} {ctl : Ctl}
    {sh : List OfMsg → List OfMsg} {bar : Bool} (hi : CInv c.learn s.ctl.learn) (ho : HostsOk c s.ctl.learn) (hsh : ∀ l, (sh l).Perm l)
    (hseen : ∀ now k, ev = .packetIn now k → s.seen k ∧ SeenOk c k) (hr : c.react s.ctl ev = some (ms, ctl))
    (hout : FlowReorder.reorder sh bar ms = some out) (ih : DInv c u s) : DInv c (ev.upAfter u) ⟨ctl, s.sw.execAll out, s.seen⟩ := by
  have hd := dstOk_event hw hb hi ho ih.dst hsh hr hout
  cases hcon : ev.isConnect with
  | true =>
    cases ev with
    | connect now up lag => exact dinv_connect hw hb hsh hr hout
    | _ => simp [Ev.isConnect] at hcon
  | false =>
    obtain ⟨h1, h2⟩ := react_u (K := s.Told) hb hi ho ih.hosts (ev := ev)
      (fun now k hk => ⟨(hseen now k hk).2, fun hg => ⟨hg, k, (hseen now k hk).1, rfl⟩⟩) hcon hr
    have hall : ∀ m ∈ out, MsgU c s.Told ev.gone true m := out_u hsh hout trivial h1
    refine ⟨exec_u hb (fun m hm => (hall m hm).add) ih.flows, ?_, hd, h2⟩
    have hgone : ∀ j, ev.gone = some j → ev.upAfter u j = false := by
      intro j hj
      cases ev <;> simp only [Ev.gone, reduceCtorEq, Option.some.injEq] at hj
      subst hj
      simp [Ev.upAfter]
    have hkeep : ∀ sl, Needed c (ev.upAfter u) sl → Needed c u sl → (s.sw.execAll out).flows sl ≠ none := by
      intro sl hn hn'
      exact (exec_full hb hgone hall hn ⟨ih.present sl hn', ih.flows sl⟩).1
    intro sl hn
    cases ev with
    | connect => simp [Ev.isConnect] at hcon
    | portUp now j lag =>
      rcases up_needed hw hb (u := u) hn with h | ⟨p, hp, hj, hadd⟩
      · exact hkeep sl hn h
      · simp only [Cfg.react] at hr
        rw [← hj, find_of_mem hw hp] at hr
        simp only [Option.some.injEq, Prod.mk.injEq] at hr
        obtain ⟨rfl, rfl⟩ := hr
        refine adds_present hsh hout ?_ (hadd _ _ ?_) s.sw
        · intro f hf hc
          have := upMsgs_u (K := s.Told) (n := none) hb _ hp lag hf
          exact absurd (this.2.1 hc).1 (by decide)
        · simp only [Ctl.portChange, setDyn, hj, if_true, change_none hb hp, ite_self]
          rfl
    | portDown now j lag => exact hkeep sl hn (hn.mono (fun i hi => by simp [Ev.upAfter] at hi; exact hi.2))
    | _ => exact hkeep sl hn hn

theorem dinv_packet {s : Sys} {u : Nat → Bool} (ih : DInv c u s) (es : List Emit) :
    DInv c u ⟨s.ctl, s.sw, fun x => s.seen x ∨ ∃ e ∈ es, e.port = portController ∧ x = Emit.toPacketIn e⟩ := by
  have hK : ∀ m, s.Told m → Sys.Told ⟨s.ctl, s.sw, fun x => s.seen x ∨ ∃ e ∈ es, e.port = portController ∧ x = Emit.toPacketIn e⟩ m := by
    rintro m ⟨h1, x, hx, h2⟩
    exact ⟨h1, x, Or.inl hx, h2⟩
  exact ⟨fun sl x hx => (ih.flows sl x hx).mono hK, ih.present, ih.dst, fun vid m e he => hK m (ih.hosts vid m e he)⟩

theorem dinv_timeout (hb : c.Basic) {s : Sys} {u : Nat → Bool} (ih : DInv c u s) {sl : Slot} {b : Body} (hf : s.sw.flows sl = some b)
    (ht : b.hard ≠ 0 ∨ b.idle ≠ 0) :
    DInv c u ⟨s.ctl, ⟨fun x => if x = sl then none else s.sw.flows x, s.sw.groups, s.sw.meters⟩, s.seen⟩ := by
  refine ⟨?_, ?_, ?_, ih.hosts⟩
  · intro sl' x hx
    simp only at hx
    split at hx
    · cases hx
    · exact ih.flows sl' x hx
  · intro sl' hn
    simp only
    split
    · rename_i he
      subst he
      obtain ⟨h1, h2⟩ := needed_permanent hb hn (ih.flows _ b hf)
      rcases ht with ht | ht
      · exact absurd h1 ht
      · exact absurd h2 ht
    · exact ih.present sl' hn
  · intro vid m e x hvid he hx
    simp only at hx
    split at hx
    · cases hx
    · exact ih.dst vid m e x hvid he hx

theorem run_inv (hw : c.WF) (hb : c.Basic) {s : Sys} {u : Nat → Bool} (h : Run c (fun k => Wire k ∧ Plain c k) s u) : DInv c u s := by
  induction h with
  | start hsh hr hout => exact dinv_connect hw hb hsh hr hout
  | event hrun hsh hseen hr hout ih =>
    have hinv := reach_inv hw hrun.reach
    exact dinv_event hw hb hinv.cinv hinv.hosts hsh (fun now k hk => ⟨hseen now k hk, hinv.seen k (hseen now k hk)⟩) hr hout ih
  | packet hrun hok hproc ih => exact dinv_packet ih _
  | timeout hrun hf ht ih => exact dinv_timeout hb ih hf ht

/-! ## Isolation from the rules -/

theorem urule_flowOk (hb : c.Basic) {sl : Slot} {inst : List Inst} {h i : Nat} (hr : URule c K sl inst h i) : FlowOk c sl inst := by
  obtain ⟨hc0, hs0, hd0, hf0, -⟩ := hb.distinct
  cases hr with
  | dVlan => exact .drop
  | dClass _ => exact .on hc0 hs0
  | dSrc => exact .on hs0 hd0
  | dDst => exact .on hd0 hf0
  | dFlood => exact .drop
  | dFib h => exact .drop
  | dVip h => exact .drop
  | @untagged p vid hp hn =>
    have := FlowOk.untagged (c := c) (s := ⟨0, lowPriority, [iInPort p.number, iUntagged]⟩) rfl hp hn rfl hc0
    simpa [hb.ext] using this
  | @tagged p vid hp hn =>
    have := FlowOk.tagged (c := c) (s := ⟨0, lowPriority, [iInPort p.number, iVlan vid]⟩) rfl hp hn rfl hc0
    simpa [hb.ext] using this
  | untagMiss => exact .drop
  | lldp hp hl => exact .lldp rfl hp hl rfl
  | outOnly => exact .drop
  | bcast => exact .drop
  | ectp => exact .drop
  | spoof => exact .drop
  | unknown => exact .ctrlOn hs0 hd0
  | src => exact .on hs0 hd0
  | ban => exact .drop
  | dst hq hin _ => exact .host hd0 hq hin (by simp) (by intro h; cases h)
  | reserved => exact .drop
  | @floodV d v r hv hr _ =>
    exact .flood (i := none) hf0 hv (row_vlan r v.vid none) (fun n hn => by cases hn) (rule_like c d v r.unicast false true none)
  | @floodP d v r p hv hr hp hin hu =>
    refine .flood (i := some p.number) hf0 hv (row_vlan r v.vid (some p.number)) ?_ (port_like c d v r.unicast false r.ethType.isNone (fport d p))
    intro n hn
    rw [← Option.some.inj hn]
    exact row_in r v.vid p.number

theorem flowsOk_u (hb : c.Basic) {sw : Switch} (h : UFlows c K sw) : FlowsOk c sw := fun sl b hs => urule_flowOk hb (h sl b hs)

theorem groupsOk_u (hb : c.Basic) (sw : Switch) : GroupsOk c sw := fun h => by rw [hb.noGroups] at h; cases h

theorem isolation_u (hw : c.WF) (hb : c.Basic) {sw : Switch} (h : UFlows c K sw) {p : LPort} (hp : p ∈ c.ports) {k : Pkt} (hk : Wire k)
    (hin : k.hdr fInPort = some p.number) {es : List Emit} (hes : Proc sw 0 k es) : ∀ e ∈ es, SameContent k e ∧ Allowed c p k e :=
  proc_good hw (flowsOk_u hb h) (groupsOk_u hb sw) hp hk hin hes

end Faucet.L2
