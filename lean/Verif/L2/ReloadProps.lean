import Verif.L2.ReloadRun
import Verif.L2.Delivery
import Verif.FlowReorder.Props

/-! # One standalone switch: isolation and delivery across reloads (C64) -/

namespace Faucet.L2
open Faucet.OF
open Faucet.Learn (iInPort iEthDst iEthSrc iVlan host CInv)

/-! ## Packets -/

/-- **C64.** Whatever configurations FAUCET is given while the switch forwards packets, copies of a packet have its content
and go only to members of its VLAN in the configuration of the moment, tagged as configured, to mirrors of members, or to FAUCET.
Partial: new configurations as in `Reloadable`, runs as in `RunR`; not modelled are LACP, ACLs, routing, stacking and the other
features that `Cfg.Basic` excludes. -/
theorem isolation_across_reloads_partial {c : Cfg} {s : Sys} {u : Nat → Bool} {q : PacketIn → Prop} (h : RunR c s u q) {p : LPort}
    (hp : p ∈ c.ports) {k : Pkt} (hk : Wire k) (hin : k.hdr fInPort = some p.number) {es : List Emit} (hes : Proc s.sw 0 k es) :
    ∀ e ∈ es, SameContent k e ∧ Allowed c p k e :=
  have hi := runR_inv h
  isolation_u hi.wf hi.basic hi.rules.flows hp hk hin hes

/-- **C64.** A packet from a port that is not configured any more goes nowhere. -/
theorem removed_port_silent_partial {c : Cfg} {s : Sys} {u : Nat → Bool} {q : PacketIn → Prop} (h : RunR c s u q) {k : Pkt}
    (hin : ∀ p ∈ c.ports, k.hdr fInPort ≠ some p.number) {es : List Emit} (hes : Proc s.sw 0 k es) : es = [] :=
  have hi := runR_inv h
  proc_unknown (flowsOk_u hi.basic hi.rules.flows) hin hes

/-- **C64.** Whatever configurations FAUCET is given, ordinary packets from ports that take packets are delivered as C63 says, with
the configuration of the moment. -/
theorem delivery_across_reloads_partial {c : Cfg} {s : Sys} {u : Nat → Bool} {q : PacketIn → Prop} (h : RunR c s u q)
    (hban : NoBan s.sw) {p : LPort} (hp : p ∈ c.ports) (ht : Takes u p) {k : Pkt} {vid : Nat} {inner : List (Nat × Nat)} {src dst : Nat}
    (ho : Ordinary c p k vid inner src dst) {es : List Emit} (hes : Proc s.sw 0 k es) :
    Flooded c p k vid inner es ∨
    ∃ r ∈ c.ports, r.In vid ∧ s.Heard dst ∧ dst.testBit 40 = false ∧ Unicast c p r k vid inner es ∧ ∀ r', s.Knows vid dst r' → r'.number = r.number :=
  have hi := runR_inv h
  delivery_core hi.wf hi.basic hi.rules hban hp ht ho hes

/-- **C64.** A host that FAUCET knows gets packets for it. -/
theorem known_host_across_reloads_partial {c : Cfg} {s : Sys} {u : Nat → Bool} {q : PacketIn → Prop} (h : RunR c s u q)
    (hban : NoBan s.sw) {p : LPort} (hp : p ∈ c.ports) (ht : Takes u p) {k : Pkt} {vid : Nat} {inner : List (Nat × Nat)} {src dst : Nat}
    (ho : Ordinary c p k vid inner src dst) {es : List Emit} (hes : Proc s.sw 0 k es) {r : LPort} (hr : r ∈ c.ports)
    (hk : s.Knows vid dst r) (hne : r ≠ p) : GetsOne r k vid inner es := by
  have hi := runR_inv h
  obtain ⟨e, he, hen⟩ := hk
  obtain ⟨r', hr', hn, hin⟩ := hi.hosts vid dst e he
  obtain rfl := port_inj hi.wf hr' hr (hn.trans hen)
  rcases delivery_across_reloads_partial h hban hp ht ho hes with h | ⟨x, hx, -, -, -, hu, hkn⟩
  · exact h.2 r' hr hin hne
  · obtain rfl := port_inj hi.wf hr hx (hkn r' ⟨e, he, hen⟩)
    exact hu.2.2 hne

/-- **C64.** Packets for an address that FAUCET never heard of, and broadcasts, go to every other member of the VLAN. -/
theorem unknown_is_flooded_across_reloads_partial {c : Cfg} {s : Sys} {u : Nat → Bool} {q : PacketIn → Prop} (h : RunR c s u q)
    (hban : NoBan s.sw) {p : LPort} (hp : p ∈ c.ports) (ht : Takes u p) {k : Pkt} {vid : Nat} {inner : List (Nat × Nat)} {src dst : Nat}
    (ho : Ordinary c p k vid inner src dst) {es : List Emit} (hes : Proc s.sw 0 k es) (hd : dst.testBit 40 = true ∨ ¬ s.Heard dst) :
    Flooded c p k vid inner es := by
  rcases delivery_across_reloads_partial h hban hp ht ho hes with h | ⟨r, -, -, h1, h2, -⟩
  · exact h
  · rcases hd with h | h
    · rw [h2] at h; cases h
    · exact absurd h1 h

/-- **C64.** FAUCET is told of every source address that it has not heard of. -/
theorem new_source_across_reloads_partial {c : Cfg} {s : Sys} {u : Nat → Bool} {q : PacketIn → Prop} (h : RunR c s u q)
    (hban : NoBan s.sw) {p : LPort} (hp : p ∈ c.ports) (ht : Takes u p) {k : Pkt} {vid : Nat} {inner : List (Nat × Nat)} {src dst : Nat}
    (ho : Ordinary c p k vid inner src dst) {es : List Emit} (hes : Proc s.sw 0 k es) (hnew : ¬ s.Heard src) :
    ∃ e ∈ es, e.port = portController ∧ (Emit.toPacketIn e).src = src := by
  have hi := runR_inv h
  rcases walk hi.wf hi.basic hi.rules hban hp ht ho hes with h | h
  · exact h
  · exact absurd h.2 hnew

/-- **C64.** Hosts that FAUCET knows are on members of their VLAN, in the configuration of the moment. -/
theorem hosts_across_reloads_partial {c : Cfg} {s : Sys} {u : Nat → Bool} {q : PacketIn → Prop} (h : RunR c s u q) {vid m : Nat}
    {e : HostCache.Entry} (he : host s.ctl.learn vid m = some e) : ∃ r ∈ c.ports, r.number = e.port.number ∧ r.In vid :=
  (runR_inv h).hosts vid m e he

/-! ## The reload itself -/

theorem port_kept {c c' : Cfg} {sec : Sections} {ch : Changes} (hw : c.WF) (hw' : c'.WF) (hch : (changes c c' sec).Same ch) {p : LPort}
    (h : PortKept c c' sec p) : p.number ∉ ch.delP ∧ p.number ∉ ch.chP := by
  constructor
  · intro hd
    have hd : p.number ∈ portDeleted c c' := (hch.delP _).2 hd
    unfold portDeleted at hd
    have := (List.mem_filter.1 hd).2
    simp only [Bool.not_eq_true', List.contains_eq_mem, decide_eq_false_iff_not] at this
    exact this (mem_nums.2 ⟨p, h.new, rfl⟩)
  · intro hc
    have hc : p.number ∈ portChanged c c' sec ++ (portSame c c' sec).filter (fun n => c.mirrors n != c'.mirrors n) := (hch.chP _).2 hc
    rcases List.mem_append.1 hc with hc | hc
    · unfold portChanged at hc
      rcases List.mem_append.1 hc with hc | hc
      · have := (List.mem_filter.1 hc).2
        simp [h.section_] at this
      · have := (List.mem_filter.1 hc).2
        rw [portVids_of hw' h.new] at this
        obtain ⟨v, hv, hvc⟩ := List.any_eq_true.1 this
        have hvc : v ∈ vlanChanged c c' sec := by simpa using hvc
        obtain ⟨⟨v', hv', rfl⟩, h1⟩ := vlanChanged_mem.1 hvc
        obtain ⟨⟨v0, hv0, he⟩, h2⟩ := h.vlans v' hv' (mem_vids.1 hv)
        rcases h1 with h1 | h1
        · exact h1 v0 hv0 he
        · rw [h2] at h1; cases h1
    · have := (List.mem_filter.1 hc).2
      rw [mirrors_of hw h.old, mirrors_of hw' h.new] at this
      simp at this

theorem vlan_kept {c c' : Cfg} {sec : Sections} {ch : Changes} (hw : c.WF) (hw' : c'.WF) (hch : (changes c c' sec).Same ch) {vid : Nat}
    (h : VlanKept c c' sec vid) : vid ∉ ch.delV ∧ vid ∉ ch.chV := by
  have hsame := h.same
  unfold Touched at hsame
  simp only [not_or, not_exists, not_not, Bool.not_eq_false] at hsame
  obtain ⟨hsec, hmem⟩ := hsame
  constructor
  · intro hd
    have hd : vid ∈ vlanDeleted c c' := (hch.delV _).2 hd
    unfold vlanDeleted at hd
    have := (List.mem_filter.1 hd).2
    simp only [Bool.not_eq_true', List.contains_eq_mem, decide_eq_false_iff_not] at this
    exact this (mem_vidList.2 h.new)
  · intro hc
    have hc : vid ∈ (vlanTouched c c' sec).filter _ := (hch.chV _).2 hc
    have hc := (List.mem_filter.1 hc).1
    unfold vlanTouched at hc
    simp only [List.mem_append] at hc
    rcases hc with ((hc | hc) | hc) | hc
    · obtain ⟨-, h1⟩ := vlanChanged_mem.1 hc
      rcases h1 with h1 | h1
      · obtain ⟨v, hv, he⟩ := h.old
        exact h1 v hv he
      · rw [hsec] at h1; cases h1
    · obtain ⟨n, hn, hm⟩ := List.mem_flatMap.1 hc
      obtain ⟨hn1, hn2⟩ := List.mem_filter.1 hn
      have hn2 : n ∈ c.nums := by simpa using hn2
      have hn' : n ∈ c'.nums := by
        unfold portChanged at hn1
        rcases List.mem_append.1 hn1 with h | h <;> exact (List.mem_filter.1 h).1
      obtain ⟨p, hp, rfl⟩ := mem_nums.1 hn2
      obtain ⟨p', hp', hpn⟩ := mem_nums.1 hn'
      have hiff := hmem p.number
      rw [member_iff hw hp, ← hpn, member_iff hw' hp'] at hiff
      unfold moved at hm
      rw [portVids_of hw hp, ← hpn, portVids_of hw' hp'] at hm
      simp only [List.mem_append, List.mem_filter, mem_vids, Bool.not_eq_true', List.contains_eq_mem, decide_eq_false_iff_not] at hm
      rcases hm with ⟨h1, h2⟩ | ⟨h1, h2⟩
      · exact h2 (hiff.1 h1)
      · exact h2 (hiff.2 h1)
    · obtain ⟨n, hn, hm⟩ := List.mem_flatMap.1 hc
      unfold portDeleted at hn
      obtain ⟨hn1, hn2⟩ := List.mem_filter.1 hn
      simp only [Bool.not_eq_true', List.contains_eq_mem, decide_eq_false_iff_not] at hn2
      obtain ⟨p, hp, rfl⟩ := mem_nums.1 hn1
      rw [portVids_of hw hp] at hm
      obtain ⟨p', hp', hpn, -⟩ := (hmem p.number).1 ⟨p, hp, rfl, mem_vids.1 hm⟩
      exact hn2 (mem_nums.2 ⟨p', hp', hpn⟩)
    · obtain ⟨n, hn, hm⟩ := List.mem_flatMap.1 hc
      unfold portAdded at hn
      obtain ⟨hn1, hn2⟩ := List.mem_filter.1 hn
      simp only [Bool.not_eq_true', List.contains_eq_mem, decide_eq_false_iff_not] at hn2
      obtain ⟨p, hp, rfl⟩ := mem_nums.1 hn1
      rw [portVids_of hw' hp] at hm
      obtain ⟨p', hp', hpn, -⟩ := (hmem p.number).2 ⟨p, hp, rfl, mem_vids.1 hm⟩
      exact hn2 (mem_nums.2 ⟨p', hp', hpn⟩)

/-- **C64.** A reload does not raise an exception. -/
theorem reload_never_raises_partial {c c' : Cfg} {sec : Sections} {s : Sys} {u : Nat → Bool} {q : PacketIn → Prop} (h : RunR c s u q)
    (hr : Reloadable c c' sec) (ch : Changes) (lag : Nat → Nat → LagChange) (sh : List OfMsg → List OfMsg)
    (bar : Bool) : ∃ ms ctl, reload c c' sec ch lag s.ctl = some (ms, ctl) ∧ ∃ out, FlowReorder.reorder sh bar ms = some out := by
  have hi := runR_inv h
  obtain ⟨st, hst, -, -⟩ := reload_hosts (c' := c') (sec := sec) (ch := ch) hi.wf hi.basic hi.cinv hi.hosts
  rw [reload_eq, hst]
  refine ⟨_, _, rfl, ?_⟩
  split
  · have hp := phased (ch := ch) (lag := lag) (w := warm c c' sec ch s.ctl.known lag s.ctl.dyn) (known := s.ctl.known) hi.basic hr.basic
    refine FlowReorder.reorder_total sh bar _ ?_
    intro m hm hdel
    exact hp.flows m hm
  · exact FlowReorder.reorder_total sh bar _ (by intro m hm; cases hm)

/-- **C64.** A reload keeps the hosts on ports and in VLANs that it does not concern, and makes no new ones. -/
theorem kept_hosts_partial {c c' : Cfg} {sec : Sections} {s : Sys} {u : Nat → Bool} {q : PacketIn → Prop} (h : RunR c s u q)
    (hr : Reloadable c c' sec) {ch : Changes} (hch : (changes c c' sec).Same ch) {lag : Nat → Nat → LagChange} {ms : List OfMsg} {ctl : Ctl}
    (he : reload c c' sec ch lag s.ctl = some (ms, ctl)) :
    (∀ vid m e, host ctl.learn vid m = some e → host s.ctl.learn vid m = some e) ∧
    ∀ p vid, PortKept c c' sec p → VlanKept c c' sec vid → ∀ m e, host s.ctl.learn vid m = some e → e.port.number = p.number →
      host ctl.learn vid m = some e := by
  have hi := runR_inv h
  obtain ⟨st, hst, -, hh⟩ := reload_hosts (c' := c') (sec := sec) (ch := ch) hi.wf hi.basic hi.cinv hi.hosts
  rw [reload_eq, hst] at he
  simp only [Option.map_some, Option.some.injEq, Prod.mk.injEq] at he
  obtain ⟨-, rfl⟩ := he
  refine ⟨fun vid m e he => ((hh vid m e).1 he).1, ?_⟩
  intro p vid hp hv m e he hn
  obtain ⟨h1, h2⟩ := port_kept hi.wf hr.wf hch hp
  obtain ⟨-, h4⟩ := vlan_kept hi.wf hr.wf hch hv
  have hs : sec.vlan vid = true := by
    have := hv.same
    unfold Touched at this
    simp only [not_or, Bool.not_eq_false] at this
    exact this.1
  exact (hh vid m e).2 ⟨he, by rw [hn]; exact h1, by rw [hn]; exact h2, h4, mem_vidList.2 hv.old, mem_vidList.2 hv.new, hs⟩

/-- **C64.** Without host limits no source address is ever banned. -/
theorem unlimited_across_reloads_never_bans_partial {c : Cfg} {s : Sys} {u : Nat → Bool} {q : PacketIn → Prop} (h : RunR c s u q)
    (hl : c.Unlimited) : NoBan s.sw := by
  intro sl b hsb hh
  have hr := (runR_inv h).rules.flows sl b hsb
  generalize b.inst = inst, b.hard = h1, b.idle = h2 at hr hh
  cases hr with
  | src => simp
  | ban h => exact absurd hl h
  | dst =>
    unfold Learn.dstInst Learn.pipelineOutput
    split <;> simp
  | _ => exact absurd rfl hh

/-- **C64.** The same configuration again: nothing is sent, and FAUCET keeps the hosts and the state of ports. -/
theorem same_config_is_free {c : Cfg} (hw : c.WF) {sec : Sections} (hp : ∀ p ∈ c.ports, sec.port p.number = true)
    (hv : ∀ v ∈ c.vlans, sec.vlan v.vid = true) {ch : Changes} (hch : (changes c c sec).Same ch) (lag : Nat → Nat → LagChange) (s : Ctl) :
    ∃ ctl, reload c c sec ch lag s = some ([], ctl) ∧ ctl.running = s.running ∧ ctl.known = s.known ∧
      (∀ p ∈ c.ports, ctl.dyn p.number = s.dyn p.number) ∧ ∀ v ∈ c.vlans, ∀ m, host ctl.learn v.vid m = host s.learn v.vid m := by
  have hpk : ∀ p ∈ c.ports, PortKept c c sec p := fun p h => ⟨h, h, hp p h, fun v hvv _ => ⟨⟨v, hvv, rfl⟩, hv v hvv⟩⟩
  have hvk : ∀ v ∈ c.vlans, VlanKept c c sec v.vid := fun v h => ⟨⟨v, h, rfl⟩, ⟨v, h, rfl⟩, by
    unfold Touched
    simp [hv v h]⟩
  have hnone : ch.none = true := by
    have h1 : ∀ n, n ∉ ch.delP := by
      intro n hn
      have : n ∈ portDeleted c c := (hch.delP _).2 hn
      unfold portDeleted at this
      obtain ⟨h1, h2⟩ := List.mem_filter.1 this
      simp [h1] at h2
    have h2 : ∀ n, n ∉ ch.chP := by
      intro n hn
      have h : n ∈ portChanged c c sec ++ (portSame c c sec).filter (fun n => c.mirrors n != c.mirrors n) := (hch.chP _).2 hn
      have hin : n ∈ c.nums := by
        rcases List.mem_append.1 h with h | h
        · unfold portChanged at h
          rcases List.mem_append.1 h with h | h <;> exact (List.mem_filter.1 h).1
        · have := (List.mem_filter.1 h).2
          simp at this
      obtain ⟨p, hpp, rfl⟩ := mem_nums.1 hin
      exact (port_kept hw hw hch (hpk p hpp)).2 hn
    have h3 : ∀ n, n ∉ ch.addP := by
      intro n hn
      have : n ∈ portAdded c c := (hch.addP _).2 hn
      unfold portAdded at this
      obtain ⟨h1, h2⟩ := List.mem_filter.1 this
      simp [h1] at h2
    have h4 : ∀ n, n ∉ ch.delV := by
      intro n hn
      have : n ∈ vlanDeleted c c := (hch.delV _).2 hn
      unfold vlanDeleted at this
      obtain ⟨h1, h2⟩ := List.mem_filter.1 this
      simp [h1] at h2
    have h5 : ∀ n, n ∉ ch.chV := by
      intro n hn
      have h : n ∈ (vlanTouched c c sec).filter (fun v => !(vlanDeleted c c).contains v) := (hch.chV _).2 hn
      have hin : n ∈ vlanTouched c c sec := (List.mem_filter.1 h).1
      unfold vlanTouched at hin
      simp only [List.mem_append] at hin
      rcases hin with ((h | h) | h) | h
      · obtain ⟨⟨v, hvv, rfl⟩, -⟩ := vlanChanged_mem.1 h
        exact (vlan_kept hw hw hch (hvk v hvv)).2 hn
      · obtain ⟨x, -, hx⟩ := List.mem_flatMap.1 h
        unfold moved at hx
        simp only [List.mem_append, List.mem_filter, or_self, Bool.not_eq_true', List.contains_eq_mem, decide_eq_false_iff_not] at hx
        exact hx.2 hx.1
      · obtain ⟨x, hx, -⟩ := List.mem_flatMap.1 h
        exact h1 x ((hch.delP _).1 hx)
      · obtain ⟨x, hx, -⟩ := List.mem_flatMap.1 h
        exact h3 x ((hch.addP _).1 hx)
    simp only [Changes.none, Bool.and_eq_true, List.isEmpty_iff, List.eq_nil_iff_forall_not_mem]
    exact ⟨⟨⟨⟨h1, h2⟩, h3⟩, h4⟩, h5⟩
  refine ⟨⟨s.running, cloneDyn c sec s.dyn s.dyn, cloneLearn c c sec s.learn, s.known⟩, ?_, rfl, rfl, ?_, ?_⟩
  · unfold reload
    rw [if_pos hnone]
  · intro p hpp
    show cloneDyn c sec s.dyn s.dyn p.number = _
    unfold cloneDyn
    rw [if_pos (by simpa using mem_nums.2 ⟨p, hpp, rfl⟩), hp p hpp]
    simp
  · intro v hvv m
    show host (cloneLearn c c sec s.learn) v.vid m = _
    rw [cloneLearn_host, if_pos ⟨mem_vidList.2 ⟨v, hvv, rfl⟩, mem_vidList.2 ⟨v, hvv, rfl⟩, hv v hvv⟩]

/-- Deletes for a port name it, or the port to output to. -/
theorem portDel_names {c : Cfg} (hb : c.Basic) {p : LPort} (hp : p ∈ c.ports) {f : FlowMod} (h : .flow f ∈ c.portDel p) :
    f.cmd = .delete ∧ (iInPort p.number ∈ f.mtch.items ∨ (f.table = c.td ∧ f.outPort = some p.number)) := by
  refine ⟨portDel_cmd hb hp h, ?_⟩
  unfold Cfg.portDel at h
  simp only [List.mem_append] at h
  rcases h with ((hm | hm) | hm) | hm
  · unfold Cfg.egressDel at hm
    rw [hb.noEgress] at hm
    simp at hm
  · unfold Cfg.switchDel at hm
    split at hm
    · cases hm
    · simp only [hb.lacp p hp, ne_eq, not_true_eq_false, if_false, List.append_nil, List.mem_append] at hm
      rcases hm with (hm | hm) | hm
      · unfold Learn.delHostFlows at hm
        simp only [hb.learnHairpin, List.append_nil, List.mem_cons, List.not_mem_nil, or_false, Table.flowdel, OfMsg.flow.injEq] at hm
        rcases hm with rfl | rfl
        · exact Or.inl List.mem_cons_self
        · exact Or.inr ⟨rfl, rfl⟩
      · split at hm
        · simp only [List.mem_singleton, Table.flowdel, OfMsg.flow.injEq] at hm
          subst hm; exact Or.inl List.mem_cons_self
        · cases hm
      · obtain ⟨vid, -, hm⟩ := List.mem_map.1 hm
        simp only [Table.flowdel, OfMsg.flow.injEq] at hm
        subst hm; exact Or.inl List.mem_cons_self
  · unfold Cfg.lldpDel at hm
    split at hm
    · simp only [List.mem_singleton, Table.flowdel, OfMsg.flow.injEq] at hm
      subst hm; exact Or.inl List.mem_cons_self
    · cases hm
  · unfold Cfg.outOnlyDel at hm
    split at hm
    · simp only [List.mem_singleton, Table.flowdel, OfMsg.flow.injEq] at hm
      subst hm; exact Or.inl List.mem_cons_self
    · cases hm

theorem portAdd_cmd {c : Cfg} (hb : c.Basic) {p : LPort} (hp : p ∈ c.ports) {f : FlowMod} (hm : .flow f ∈ c.portAdd p) : f.cmd = .add := by
  have rule : ∀ push vid, .flow f ∈ c.vlanRule p push vid → f.cmd = .add := by
    intro push vid hm
    have hm := Option.mem_toList.1 hm
    unfold Pipeline.portVlanFlow at hm
    obtain ⟨i, -, hm⟩ := Option.map_eq_some_iff.1 hm
    rw [← OfMsg.flow.inj hm]
  unfold Cfg.portAdd at hm
  simp only [List.mem_append] at hm
  rcases hm with ((hm | hm) | hm) | hm
  · unfold Cfg.egressAdd at hm
    rw [hb.noEgress] at hm
    simp at hm
  · unfold Cfg.switchAdd at hm
    split at hm
    · cases hm
    · simp only [hb.lacp p hp, ne_eq, not_true_eq_false, if_false, List.append_nil] at hm
      rcases List.mem_append.1 hm with hm | hm
      · obtain ⟨vid, hv, hm⟩ := List.mem_flatMap.1 hm
        exact rule _ _ hm
      · unfold Cfg.untaggedRule at hm
        split at hm
        · exact rule _ _ hm
        · split at hm
          · rw [OfMsg.flow.inj (List.mem_singleton.1 hm)]
          · cases hm
  · unfold Cfg.lldpAdd at hm
    split at hm
    · rw [OfMsg.flow.inj (List.mem_singleton.1 hm)]
    · cases hm
  · unfold Cfg.outOnlyAdd at hm
    split at hm
    · rw [OfMsg.flow.inj (List.mem_singleton.1 hm)]
    · cases hm

theorem addVlan_del {c : Cfg} {d : Nat → Dyn} {cold : Bool} {v : LVlan} {f : FlowMod} (hm : .flow f ∈ c.addVlan d cold v) (hb : c.Basic)
    (hc : f.cmd = .delete) : f.table = c.tf := by
  unfold Cfg.addVlan at hm
  simp only [List.mem_append] at hm
  rcases hm with (hm | hm) | hm
  · split at hm
    · rw [OfMsg.flow.inj (List.mem_singleton.1 hm)] at hc
      cases hc
    · cases hm
  · have hm := Option.mem_toList.1 hm
    unfold Pipeline.unknownFlow at hm
    obtain ⟨i, -, hm⟩ := Option.map_eq_some_iff.1 hm
    rw [← OfMsg.flow.inj hm] at hc
    cases hc
  · exact (floodRules_cmd hb d v cold false hm).2

/-- The deletes of a reload do not hit a rule for a host on a port that is not concerned, in a VLAN that is not concerned. -/
theorem host_spared {c c' : Cfg} {sec : Sections} {ch : Changes} {lag : Nat → Nat → LagChange} {w : Warm} {known : Nat → Bool} (hw : c.WF)
    (hb : c.Basic) (h : Reloadable c c' sec) {vid : Nat} (hvid : vid < 4096) (hv : vid ∉ ch.delV ∧ vid ∉ ch.chV) {sl : Slot} {b : Body}
    (hin : ∀ a ∈ sl.items, a.field = fInPort → a.value ∉ ch.delP ∧ a.value ∉ ch.chP)
    (hvl : ∀ a ∈ sl.items, a.field = fVlanVid → a.value = vidPresent vid) (ht : sl.table = c.ts ∨ sl.table = c.td)
    (hout : sl.table = c.td → ∀ n, b.outputsTo n = true → n ∉ ch.delP ∧ n ∉ ch.chP) {d : FlowMod}
    (hd : .flow d ∈ oldMsgs c ch lag w ++ newMsgs c' ch known lag w) : d.kills sl b = false := by
  obtain ⟨hc0, hs0, hd0, hf0, hsd, hsf, hdf, hcd, hcf, -, -, hsA, hdA, hfA, -⟩ := hb.distinct
  obtain ⟨t1, t2, t3, t4⟩ := h.dp.tables hb h.basic
  have htf : sl.table ≠ c.tf := by rcases ht with h | h <;> rw [h] <;> assumption
  have flood : d.table = c.tf → d.kills sl b = false := by
    intro hdt
    by_contra hk
    have htab : d.tableOk sl.table = true := by
      cases hc : d.cmd <;> simp [FlowMod.kills, hc] at hk <;> simp [hk]
    simp only [FlowMod.tableOk, hdt, Bool.or_eq_true, beq_iff_eq] at htab
    rcases htab with h | h
    · exact hfA h
    · exact htf h.symm
  have vlan : ∀ v : LVlan, v.vid < 4096 → v.vid ∈ ch.delV ∨ v.vid ∈ ch.chV → d.cmd = .delete → d.mtch.items = [iVlan v.vid] → d.kills sl b = false := by
    intro v hv1 hv2 hc hi
    by_contra hk
    simp only [FlowMod.kills, hc, Bool.not_eq_false, Bool.and_eq_true] at hk
    obtain ⟨⟨-, hcov⟩, -⟩ := hk
    rw [hi] at hcov
    obtain ⟨a, ha, haf, hav⟩ := covers_field hcov List.mem_cons_self rfl
    have := hvl a ha haf
    rw [hav] at this
    have := Learn.vidPresent_inj hv1 hvid this
    rcases hv2 with h | h
    · exact hv.1 (this ▸ h)
    · exact hv.2 (this ▸ h)
  rcases List.mem_append.1 hd with hd | hd
  · cases oldMsgs_mem hb hd with
    | @port p hp hn hm =>
      obtain ⟨hc, hm⟩ := portDel_names hb hp hm
      by_contra hk
      simp only [FlowMod.kills, hc, Bool.not_eq_false, Bool.and_eq_true] at hk
      obtain ⟨⟨htab, hcov⟩, ho⟩ := hk
      rcases hm with hm | ⟨hm1, hm2⟩
      · obtain ⟨a, ha, haf, hav⟩ := covers_field hcov hm rfl
        have := hin a ha haf
        rw [hav] at this
        rcases hn with h | h
        · exact this.1 h
        · exact this.2 h
      · simp only [FlowMod.tableOk, hm1, Bool.or_eq_true, beq_iff_eq] at htab
        have htd : sl.table = c.td := by
          rcases htab with h | h
          · exact absurd h hdA
          · exact h.symm
        simp only [FlowMod.outPortOk, hm2] at ho
        have := hout htd _ ho
        rcases hn with h | h
        · exact this.1 h
        · exact this.2 h
    | update hv hm => exact flood (floodRules_cmd hb _ _ _ _ hm).2
    | @vlan v hv hvd hm =>
      obtain ⟨h1, -, h3, -⟩ := delVlan_cmd hm
      exact vlan v (hw.vid v hv) (Or.inl hvd) h1 h3
  · have hm := newMsgs_mem h.basic hd
    rcases hm.cmd h.basic (fun _ => False) with hc | ⟨hc, -⟩
    · cases hm with
      | @port p hp hm =>
        exact absurd hc (by rw [portAdd_cmd h.basic hp hm]; decide)
      | add hv hm =>
        exact flood (by rw [← t4]; exact addVlan_del hm h.basic hc)
      | @vlan v hv hvd hm =>
        obtain ⟨h1, -, h3, -⟩ := delVlan_cmd hm
        exact vlan v (h.wf.vid v hv) (Or.inr hvd) h1 h3
    · simp [FlowMod.kills, hc]

theorem no_src {c : Cfg} {sl : Slot} {i : List Inst} {h t : Nat} (hr : URule c (fun _ => False) sl i h t) (hp : sl.priority = matchPriority - 1)
    (hl : sl.items.length = 3) (ht : sl.table = c.ts) (hsf : c.ts ≠ c.tf) (hs0 : c.ts ≠ 0) : False := by
  cases hr with
  | src hk => exact hk
  | ban => exact absurd hp (show lowPriority + 1 ≠ matchPriority - 1 by decide)
  | dst _ _ hk => exact hk
  | lldp => exact hs0 ht.symm
  | floodV => exact hsf ht.symm
  | floodP => exact hsf ht.symm
  | _ => simp at hl

/-- **C64.** A reload leaves the switch's rules for hosts on ports and in VLANs that it does not concern: the rule that says the
host is known on the port, and the rule that forwards to it, if the ports that rule outputs to (mirrors too) are not concerned. -/
theorem kept_host_rules_partial {c c' : Cfg} {sec : Sections} {s : Sys} {u : Nat → Bool} {q : PacketIn → Prop} (h : RunR c s u q)
    (hr : Reloadable c c' sec) {ch : Changes} (hch : (changes c c' sec).Same ch) {lag : Nat → Nat → LagChange} {ms : List OfMsg} {ctl : Ctl}
    (he : reload c c' sec ch lag s.ctl = some (ms, ctl)) {sh : List OfMsg → List OfMsg} (hsh : ∀ l, (sh l).Perm l) {bar : Bool}
    {out : List OfMsg} (hout : FlowReorder.reorder sh bar ms = some out) {vid : Nat} (hv : VlanKept c c' sec vid) (m : Nat) {b : Body} :
    (∀ p, PortKept c c' sec p → s.sw.flows (Learn.srcSlot c.learn p.number vid m) = some b →
      (s.sw.execAll out).flows (Learn.srcSlot c.learn p.number vid m) = some b) ∧
    ((∀ n, b.outputsTo n = true → ∃ p, PortKept c c' sec p ∧ p.number = n) → s.sw.flows (Learn.dstSlot c.learn vid m) = some b →
      (s.sw.execAll out).flows (Learn.dstSlot c.learn vid m) = some b) := by
  have hi := runR_inv h
  have hb := hi.basic
  have hvid : vid < 4096 := by
    obtain ⟨v, hv', rfl⟩ := hv.old
    exact hi.wf.vid v hv'
  have hvk := vlan_kept hi.wf hr.wf hch hv
  obtain ⟨hc0, hs0, hd0, hf0, hsd, hsf, hdf, hcd, hcf, -, -, hsA, hdA, hfA, -⟩ := hb.distinct
  obtain ⟨t1, t2, t3, t4⟩ := hr.dp.tables hb hr.basic
  have hext : Learn.dstItems m vid (Learn.extFlag c.learn) = [iEthDst m, iVlan vid] := by
    rw [hb.learnExt]; rfl
  rw [reload_eq] at he
  obtain ⟨st, hst, he⟩ := Option.map_eq_some_iff.1 he
  simp only [Prod.mk.injEq] at he
  obtain ⟨rfl, rfl⟩ := he
  split at hout
  case isFalse =>
    have hno : FlowReorder.Phased [] [] := ⟨nofun, nofun, nofun, nofun, nofun⟩
    have : ∀ sl, s.sw.flows sl = some b → (s.sw.execAll out).flows sl = some b := by
      intro sl hsl
      rcases FlowReorder.batch_at hsh hno hout s.sw sl with ⟨f, hf, -⟩ | ⟨-, x, -, h1, h2⟩
      · cases hf
      · have hx := h1 b hsl (fun d hd => by cases hd)
        rcases h2 with h2 | ⟨f, hf, -⟩
        · rw [h2, hx]
        · cases hf
    exact ⟨fun p _ h => this _ h, fun _ h => this _ h⟩
  have key : ∀ sl, (sl.table = c.ts ∧ sl.priority = matchPriority - 1 ∧ sl.items.length = 3) ∨ sl.table = c.td →
      s.sw.flows sl = some b → (∀ d, .flow d ∈ oldMsgs c ch lag (warm c c' sec ch s.ctl.known lag s.ctl.dyn) ++ newMsgs c' ch s.ctl.known lag (warm c c' sec ch s.ctl.known lag s.ctl.dyn) → d.kills sl b = false) →
      (s.sw.execAll out).flows sl = some b := by
    intro sl hsl hsb hk
    rcases FlowReorder.batch_at hsh (phased hb hr.basic) hout s.sw sl with ⟨f, hf1, hf2, hf3, hf4⟩ | ⟨-, x, -, h1, h2⟩
    · exfalso
      have hm := newMsgs_mem hr.basic hf1
      rcases hsl with ⟨ha, hp, hl⟩ | hd
      · rcases hm.cmd hr.basic (fun _ => False) with hc | ⟨-, hu⟩
        · rw [hf2] at hc; cases hc
        rw [hf3] at hu
        exact no_src hu hp hl (by rw [t2]; exact ha) (by rw [t2, t4]; exact hsf) (by rw [t2]; exact hs0)
      · exact new_not_dst hr.basic hm hf2 (by rw [t3]; rw [← hd, ← hf3]; rfl)
    · have hx := h1 b hsb hk
      rcases h2 with h2 | ⟨f, hf1, hf2, hf3, -⟩
      · rw [h2, hx]
      · exfalso
        rcases (oldMsgs_mem hb hf1).cmd hb (fun _ => False) with hc | ⟨-, hc, -⟩
        · rw [hf2] at hc; cases hc
        · have : sl.table = c.tf := by rw [← hf3]; exact hc
          rcases hsl with ⟨ha, -⟩ | ha <;> rw [ha] at this
          · exact hsf this
          · exact hdf this
  constructor
  · intro p hp hs
    have hpk := port_kept hi.wf hr.wf hch hp
    refine key _ (Or.inl ⟨rfl, rfl, rfl⟩) hs (fun d hd => host_spared hi.wf hb hr hvid hvk ?_ ?_ (Or.inl rfl) (fun h => absurd h hsd) hd)
    · intro a ha hf
      simp only [Learn.srcSlot, List.mem_cons, List.not_mem_nil, or_false] at ha
      rcases ha with rfl | rfl | rfl
      · exact hpk
      · exact absurd hf (show fEthSrc ≠ fInPort by decide)
      · exact absurd hf (show fVlanVid ≠ fInPort by decide)
    · intro a ha hf
      simp only [Learn.srcSlot, List.mem_cons, List.not_mem_nil, or_false] at ha
      rcases ha with rfl | rfl | rfl
      · exact absurd hf (show fInPort ≠ fVlanVid by decide)
      · exact absurd hf (show fEthSrc ≠ fVlanVid by decide)
      · rfl
  · intro ho hs
    refine key _ (Or.inr rfl) hs (fun d hd => host_spared hi.wf hb hr hvid hvk ?_ ?_ (Or.inr rfl) ?_ hd)
    · intro a ha hf
      simp only [Learn.dstSlot, hext, List.mem_cons, List.not_mem_nil, or_false] at ha
      rcases ha with rfl | rfl
      · exact absurd hf (show fEthDst ≠ fInPort by decide)
      · exact absurd hf (show fVlanVid ≠ fInPort by decide)
    · intro a ha hf
      simp only [Learn.dstSlot, hext, List.mem_cons, List.not_mem_nil, or_false] at ha
      rcases ha with rfl | rfl
      · exact absurd hf (show fEthDst ≠ fVlanVid by decide)
      · rfl
    · intro _ n hn
      obtain ⟨p, hp, rfl⟩ := ho n hn
      exact port_kept hi.wf hr.wf hch hp

end Faucet.L2
