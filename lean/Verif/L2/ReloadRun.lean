import Verif.L2.ReloadInv
import Verif.L2.UInv

/-! # One standalone switch: invariants of runs with reloads -/

namespace Faucet.L2
open Faucet.OF
open Faucet.Learn (iInPort iEthDst iEthSrc iVlan host CInv)
open Faucet.HostCache (Entry)

variable {c c' : Cfg} {sec : Sections} {ch : Changes} {lag : Nat → Nat → LagChange} {K : Nat → Prop}

/-! ## Hosts -/

/-- Removing ports forgets the hosts on them and no others. -/
theorem forget_hosts (hw : c.WF) (hb : c.Basic) (ps : List LPort) : ∀ {st : Learn.St}, CInv c.learn st → HostsOk c st → (∀ p ∈ ps, p ∈ c.ports) →
    ∃ st', c.forgetAll ps st = some st' ∧ Learn.Removal c.learn st st' ∧
      ∀ vid m e, host st' vid m = some e ↔ host st vid m = some e ∧ ∀ p ∈ ps, p.number ≠ e.port.number := by
  induction ps with
  | nil =>
    intro st hi _ _
    exact ⟨st, rfl, Learn.Removal.refl hi, fun vid m e => ⟨fun h => ⟨h, fun p hp => by cases hp⟩, fun h => h.1⟩⟩
  | cons p ps ih =>
    intro st hi ho hps
    have hp := hps p List.mem_cons_self
    obtain ⟨s1, h1, h2, h3, -⟩ := Learn.portDelete_effect (learn_wf c) hi p.number
    have ho1 : HostsOk c s1 := fun vid m e he => ho vid m e (h2.keep vid m e he)
    obtain ⟨s2, g1, g2, g3⟩ := ih h2.cinv ho1 (fun q hq => hps q (List.mem_cons_of_mem _ hq))
    refine ⟨s2, ?_, h2.trans g2, ?_⟩
    · unfold Cfg.forgetAll
      rw [h1]
      exact g1
    · intro vid m e
      rw [g3 vid m e, h3 vid m]
      have hl : (c.learn.port p.number).lacp = 0 := (hostPort_plain hb _).2.2.1
      constructor
      · rintro ⟨h4, h5⟩
        by_cases hc : (c.learn.port p.number).lacp = 0 ∧ vid ∈ c.learn.portVlans p.number ∧ ∃ e, host st vid m = some e ∧ e.port.number = p.number
        · rw [if_pos hc] at h4; cases h4
        · rw [if_neg hc] at h4
          refine ⟨h4, fun q hq => ?_⟩
          rcases List.mem_cons.1 hq with rfl | hq
          · intro hn
            refine hc ⟨hl, ?_, e, h4, hn.symm⟩
            obtain ⟨q', hq', hn', hin⟩ := ho vid m e h4
            rw [port_inj hw hq' hp (hn'.trans hn.symm)] at hin
            show vid ∈ c.portVids q.number
            rw [portVids_of hw hp]
            exact mem_vids.2 hin
          · exact h5 q hq
      · rintro ⟨h4, h5⟩
        refine ⟨?_, fun q hq => h5 q (List.mem_cons_of_mem _ hq)⟩
        rw [if_neg ?_]
        · exact h4
        · rintro ⟨-, -, e', he', hn⟩
          rw [h4] at he'
          cases he'
          exact h5 p List.mem_cons_self hn.symm

theorem resetVlans_host (chV : List Nat) (st : Learn.St) (vid m : Nat) :
    host (resetVlans chV st) vid m = if vid ∈ chV then none else host st vid m := by
  unfold host resetVlans
  by_cases h : vid ∈ chV
  · simp [h, HostCache.resetCaches, HostCache.cachedHost]
  · simp [h]

theorem cloneLearn_host (c c' : Cfg) (sec : Sections) (st : Learn.St) (vid m : Nat) :
    host (cloneLearn c c' sec st) vid m = if vid ∈ c.vidList ∧ vid ∈ c'.vidList ∧ sec.vlan vid = true then host st vid m else none := by
  unfold host cloneLearn cloneVlan
  by_cases h : vid ∈ c.vidList ∧ vid ∈ c'.vidList ∧ sec.vlan vid = true
  · simp [h]
  · have hc : (c.vidList.contains vid && c'.vidList.contains vid && sec.vlan vid) = false := by
      by_contra hc
      apply h
      simpa [and_assoc] using hc
    simp only [if_neg h, hc]
    rfl

/-- The hosts that are known after a reload. -/
theorem reload_hosts (hw : c.WF) (hb : c.Basic) {st0 : Learn.St} (hi : CInv c.learn st0) (ho : HostsOk c st0) :
    ∃ st, c.forgetAll (c.portsOf ch.delP ++ c.portsOf ch.chP) st0 = some st ∧ CInv c.learn st ∧
      ∀ vid m e, host (resetVlans ch.chV (cloneLearn c c' sec st)) vid m = some e ↔
        host st0 vid m = some e ∧ e.port.number ∉ ch.delP ∧ e.port.number ∉ ch.chP ∧ vid ∉ ch.chV ∧
          vid ∈ c.vidList ∧ vid ∈ c'.vidList ∧ sec.vlan vid = true := by
  obtain ⟨st, h1, h2, h3⟩ := forget_hosts hw hb (c.portsOf ch.delP ++ c.portsOf ch.chP) hi ho (by
    intro p hp
    rcases List.mem_append.1 hp with hp | hp <;> exact (mem_portsOf hp).1)
  refine ⟨st, h1, h2.cinv, ?_⟩
  intro vid m e
  rw [resetVlans_host, cloneLearn_host]
  have key : host st vid m = some e ↔ host st0 vid m = some e ∧ e.port.number ∉ ch.delP ∧ e.port.number ∉ ch.chP := by
    rw [h3]
    refine and_congr_right fun he => ?_
    obtain ⟨q, hq, hn, -⟩ := ho vid m e he
    constructor
    · intro h
      constructor <;> intro hin
      · exact h q (List.mem_append_left _ (portsOf_mem hw hq (by rw [hn]; exact hin))) hn
      · exact h q (List.mem_append_right _ (portsOf_mem hw hq (by rw [hn]; exact hin))) hn
    · rintro ⟨g1, g2⟩ p hp hpn
      rcases List.mem_append.1 hp with hp | hp
      · exact g1 (hpn ▸ (mem_portsOf hp).2)
      · exact g2 (hpn ▸ (mem_portsOf hp).2)
  by_cases hv : vid ∈ ch.chV
  · rw [if_pos hv]
    exact ⟨fun h => (by cases h), fun h => absurd hv h.2.2.2.1⟩
  · rw [if_neg hv]
    by_cases hc : vid ∈ c.vidList ∧ vid ∈ c'.vidList ∧ sec.vlan vid = true
    · rw [if_pos hc, key]
      exact ⟨fun h => ⟨h.1, h.2.1, h.2.2, hv, hc⟩, fun h => ⟨h.1, h.2.1, h.2.2.1⟩⟩
    · rw [if_neg hc]
      exact ⟨fun h => (by cases h), fun h => absurd h.2.2.2.2 hc⟩

theorem reload_learn (hw : c.WF) (h : Reloadable c c' sec) (hch : (changes c c' sec).Same ch) {st0 st : Learn.St}
    (hi : CInv c.learn st0) (ho : HostsOk c st0) (hst : CInv c.learn st)
    (hh : ∀ vid m e, host (resetVlans ch.chV (cloneLearn c c' sec st)) vid m = some e ↔
        host st0 vid m = some e ∧ e.port.number ∉ ch.delP ∧ e.port.number ∉ ch.chP ∧ vid ∉ ch.chV ∧
          vid ∈ c.vidList ∧ vid ∈ c'.vidList ∧ sec.vlan vid = true) :
    CInv c'.learn (resetVlans ch.chV (cloneLearn c c' sec st)) ∧ HostsOk c' (resetVlans ch.chV (cloneLearn c c' sec st)) := by
  have key : ∀ vid m e, host (resetVlans ch.chV (cloneLearn c c' sec st)) vid m = some e →
      ∃ q ∈ c.ports, q ∈ c'.ports ∧ q.number = e.port.number ∧ q.In vid ∧ host st0 vid m = some e := by
    intro vid m e he
    obtain ⟨h1, h2, h3, -⟩ := (hh vid m e).1 he
    obtain ⟨q, hq, hn, hin⟩ := ho vid m e h1
    exact ⟨q, hq, port_same hw h hch hq (by rw [hn]; exact h2) (by rw [hn]; exact h3), hn, hin, h1⟩
  refine ⟨⟨?_, ?_⟩, ?_⟩
  · intro vid
    unfold resetVlans
    simp only
    split
    · exact HostCache.inv_reset _
    · unfold cloneLearn cloneVlan
      simp only
      split
      · exact hst.inv vid
      · exact HostCache.inv_init
  · intro vid m e he
    obtain ⟨q, hq, hq', hn, -, h1⟩ := key vid m e he
    have hp : e.port = c.hostPort e.port.number := hi.port vid m e h1
    rw [hp, hostPort_number]
    show c.hostPort e.port.number = c'.hostPort e.port.number
    rw [← hn]
    unfold Cfg.hostPort
    rw [find_of_mem hw hq, find_of_mem h.wf hq']
  · intro vid m e he
    obtain ⟨q, hq, hq', hn, hin, -⟩ := key vid m e he
    exact ⟨q, hq', hn, hin⟩

/-! ## The state of ports -/

theorem deleteDyn_other {d : Nat → Dyn} {ns : List Nat} {l : Nat → LagChange} {n : Nat} (hn : n ∉ ns) : c.deleteDyn d ns l n = d n := by
  unfold Cfg.deleteDyn
  rw [if_neg (by simpa using hn)]

theorem connectDyn_up (hw : c.WF) (d : Nat → Dyn) {ns : List Nat} (l : Nat → LagChange) {p : LPort} (hp : p ∈ c.ports) (hn : p.number ∈ ns) :
    (c.connectDyn d ns l p.number).physUp = true := by
  unfold Cfg.connectDyn
  rw [find_of_mem hw hp]
  simp only
  rw [if_pos (by simpa using hn)]
  have : ∀ (x : Dyn) o, (newDyn x true o).physUp = true := by
    intro x o; cases o <;> rfl
  split <;> exact this _ _

theorem connectDyn_other {d : Nat → Dyn} {ns : List Nat} {l : Nat → LagChange} {n : Nat} (hn : n ∉ ns) : c.connectDyn d ns l n = d n := by
  unfold Cfg.connectDyn
  split
  · rfl
  · rw [if_neg (by simpa using hn)]

theorem connectDyn_keeps (hw : c.WF) {d : Nat → Dyn} (ns : List Nat) (l : Nat → LagChange) {p : LPort} (hp : p ∈ c.ports) (h : (d p.number).physUp = true) :
    (c.connectDyn d ns l p.number).physUp = true := by
  by_cases hn : p.number ∈ ns
  · exact connectDyn_up hw d l hp hn
  · rw [connectDyn_other hn]; exact h

/-- A port that FAUCET knows to be up is up in the state of ports after the reload. -/
theorem warm_up (h : Reloadable c c' sec) (hch : (changes c c' sec).Same ch) {known : Nat → Bool} {d : Nat → Dyn} {p : LPort}
    (hp : p ∈ c'.ports) (hkn : known p.number = true) (hd : (∃ p0 ∈ c.ports, p0.number = p.number) → (d p.number).physUp = true) :
    (p.number ∈ ch.addP → ((warm c c' sec ch known lag d).dAdd p.number).physUp = true) ∧
      ((warm c c' sec ch known lag d).dEnd p.number).physUp = true := by
  have hadd : p.number ∈ ch.addP → ((warm c c' sec ch known lag d).dAdd p.number).physUp = true := by
    intro hin
    exact connectDyn_up h.wf _ _ hp (List.mem_filter.2 ⟨hin, hkn⟩)
  refine ⟨hadd, ?_⟩
  by_cases hc : p.number ∈ ch.chP
  · exact connectDyn_up h.wf _ _ hp (List.mem_filter.2 ⟨hc, hkn⟩)
  · refine connectDyn_keeps h.wf _ _ hp ?_
    by_cases ha : p.number ∈ ch.addP
    · exact hadd ha
    · refine connectDyn_keeps h.wf _ _ hp ?_
      have hin : ∃ q ∈ c.ports, q.number = p.number := by
        by_contra hno
        refine ha ((hch.addP _).1 ?_)
        show p.number ∈ portAdded c c'
        unfold portAdded
        rw [List.mem_filter]
        refine ⟨mem_nums.2 ⟨p, hp, rfl⟩, ?_⟩
        simp only [Bool.not_eq_true', List.contains_eq_mem, decide_eq_false_iff_not]
        exact fun hin => hno (mem_nums.1 hin)
      have hdel : p.number ∉ ch.delP := by
        intro hd
        have hd : p.number ∈ portDeleted c c' := (hch.delP _).2 hd
        unfold portDeleted at hd
        have := (List.mem_filter.1 hd).2
        simp only [Bool.not_eq_true', List.contains_eq_mem, decide_eq_false_iff_not] at this
        exact this (mem_nums.2 ⟨p, hp, rfl⟩)
      unfold cloneDyn
      rw [if_pos (by simpa using mem_nums.2 hin), deleteDyn_other hc, deleteDyn_other hdel]
      exact hd hin

/-! ## The reload -/

/-- Without changes the general case does nothing as well. -/
theorem reload_eq (c c' : Cfg) (sec : Sections) (ch : Changes) (lag : Nat → Nat → LagChange) (s : Ctl) :
    reload c c' sec ch lag s =
      (c.forgetAll (c.portsOf ch.delP ++ c.portsOf ch.chP) s.learn).map (fun st =>
        (if s.running then oldMsgs c ch lag (warm c c' sec ch s.known lag s.dyn) ++ newMsgs c' ch s.known lag (warm c c' sec ch s.known lag s.dyn) else [],
          ⟨s.running, (warm c c' sec ch s.known lag s.dyn).dEnd, resetVlans ch.chV (cloneLearn c c' sec st), s.known⟩)) := by
  unfold reload
  by_cases hn : ch.none = true
  · rw [if_pos hn]
    obtain ⟨a, b, c1, d, e⟩ := ch
    simp only [Changes.none, Bool.and_eq_true, List.isEmpty_iff] at hn
    obtain ⟨⟨⟨⟨rfl, rfl⟩, rfl⟩, rfl⟩, rfl⟩ := hn
    have hdel : ∀ (d : Nat → Dyn) l, c.deleteDyn d [] l = d := fun d l => funext fun n => deleteDyn_other (by simp)
    have hcon : ∀ (d : Nat → Dyn) l, c'.connectDyn d [] l = d := fun d l => funext fun n => connectDyn_other (by simp)
    simp [warm, hdel, hcon, oldMsgs, newMsgs, Cfg.deleteMsgs, Cfg.addMsgs, Cfg.portsOf, Cfg.forgetAll, resetVlans]
  · rw [if_neg hn]

theorem dstSlot_same (h : Reloadable c c' sec) (hb : c.Basic) (vid m : Nat) : Learn.dstSlot c'.learn vid m = Learn.dstSlot c.learn vid m := by
  obtain ⟨-, -, t3, -⟩ := h.dp.tables hb h.basic
  have e2 : Learn.extFlag c'.learn = Learn.extFlag c.learn := by rw [hb.learnExt, h.basic.learnExt]
  unfold Learn.dstSlot
  rw [e2]
  congr 1

/-- Rules for destinations that are left are old rules. -/
theorem dst_left (hb : c.Basic) (h : Reloadable c c' sec) {w : Warm} {known : Nat → Bool} {sh : List OfMsg → List OfMsg} (hsh : ∀ l, (sh l).Perm l) {bar : Bool} {out : List OfMsg}
    (hout : FlowReorder.reorder sh bar (oldMsgs c ch lag w ++ newMsgs c' ch known lag w) = some out) {sw : Switch} {sl : Slot} {b : Body}
    (ht : sl.table = c.td) (hs : (sw.execAll out).flows sl = some b) : sw.flows sl = some b := by
  obtain ⟨hc0, hs0, hd0, hf0, hsd, hsf, hdf, hcd, hcf, -⟩ := hb.distinct
  obtain ⟨-, -, t3, -⟩ := h.dp.tables hb h.basic
  rcases FlowReorder.batch_at hsh (phased hb h.basic) hout sw sl with ⟨f, hf1, hf2, hf3, hf4⟩ | ⟨-, b', h1, -, h2⟩
  · exfalso
    refine new_not_dst h.basic (newMsgs_mem h.basic hf1) hf2 ?_
    rw [t3, ← ht, ← hf3]; rfl
  · rcases h2 with h2 | ⟨f, hf1, hf2, hf3, -⟩
    · rw [hs] at h2
      exact (h1 b h2.symm).1
    · exfalso
      rcases (oldMsgs_mem hb hf1).cmd hb (fun _ => False) with h' | ⟨-, h', -⟩
      · rw [hf2] at h'; cases h'
      · exact hdf (by rw [← ht, ← hf3]; exact h')

/-- What FAUCET knows of ports that the switch last reported up. -/
def UpOk (c : Cfg) (u : Nat → Bool) (s : Ctl) : Prop :=
  s.running = true → ∀ p ∈ c.ports, u p.number = true → (s.dyn p.number).physUp = true ∧ s.known p.number = true

structure RInv (c : Cfg) (s : Sys) (u : Nat → Bool) (q : PacketIn → Prop) : Prop where
  wf : c.WF
  basic : c.Basic
  rules : DInv c u s
  cinv : CInv c.learn s.ctl.learn
  hosts : HostsOk c s.ctl.learn
  seen : ∀ k, q k → s.seen k ∧ SeenOk c k
  up : UpOk c u s.ctl

theorem upOk_connect (hw : c.WF) {ctl0 ctl : Ctl} {now : Int} {up : List Nat} {l : Nat → LagChange} {ms : List OfMsg}
    (hr : c.react ctl0 (.connect now up l) = some (ms, ctl)) : UpOk c (fun i => up.contains i) ctl := by
  simp only [Cfg.react, Option.some.injEq, Prod.mk.injEq] at hr
  obtain ⟨-, rfl⟩ := hr
  intro _ p hp hu
  have hu : up.contains p.number = true := hu
  refine ⟨connectDyn_up hw _ _ hp (by simpa using hu), ?_⟩
  show c.knownAfter ctl0.known up p.number = true
  unfold Cfg.knownAfter
  rw [find_of_mem hw hp]
  simpa using hu

theorem upOk_event (hw : c.WF) (hb : c.Basic) {s ctl : Ctl} {u : Nat → Bool} {ev : Ev} {ms : List OfMsg} (h : UpOk c u s)
    (hr : c.react s ev = some (ms, ctl)) : UpOk c (ev.upAfter u) ctl := by
  have same : ∀ {ms : List OfMsg} {st : Learn.St}, UpOk c u (s.withLearn (ms, st)).2 := h
  cases ev with
  | connect now up l => exact upOk_connect hw hr
  | disconnect now l =>
    simp only [Cfg.react, Option.map_eq_some_iff, Prod.mk.injEq] at hr
    obtain ⟨st, -, -, rfl⟩ := hr
    intro hrun; cases hrun
  | packetIn now k =>
    simp only [Cfg.react] at hr
    split at hr
    · obtain ⟨⟨ms', st⟩, -, h2⟩ := Option.map_eq_some_iff.1 hr
      obtain rfl := congrArg Prod.snd h2
      exact h
    · cases hr; exact h
  | expire now vid =>
    simp only [Cfg.react] at hr
    split at hr
    · obtain ⟨⟨ms', st⟩, -, h2⟩ := Option.map_eq_some_iff.1 hr
      obtain rfl := congrArg Prod.snd h2
      exact h
    · cases hr; exact h
  | portUp now n l =>
    simp only [Cfg.react] at hr
    split at hr
    · rename_i p hp
      simp only [Option.some.injEq, Prod.mk.injEq] at hr
      obtain ⟨-, rfl⟩ := hr
      obtain ⟨hp, hn⟩ := find_some hp
      intro hrun q hq hu
      simp only [Ctl.portChange, setDyn]
      by_cases he : q.number = p.number
      · rw [if_pos he, if_pos he]
        refine ⟨?_, rfl⟩
        have : ∀ (x : Dyn) o, (newDyn x true o).physUp = true := by
          intro x o; cases o <;> rfl
        exact this _ _
      · rw [if_neg he, if_neg he]
        simp only [Ev.upAfter, Bool.or_eq_true, beq_iff_eq] at hu
        rcases hu with hu | hu
        · exact absurd (hu.trans hn.symm) he
        · exact h hrun q hq hu
    · rename_i hp
      cases hr
      intro hrun q hq hu
      simp only [Ev.upAfter, Bool.or_eq_true, beq_iff_eq] at hu
      rcases hu with hu | hu
      · rw [← hu, find_of_mem hw hq] at hp; cases hp
      · obtain ⟨h1, h2⟩ := h hrun q hq hu
        refine ⟨h1, ?_⟩
        simp only [Ctl.setKnown]
        split
        · rfl
        · exact h2
  | portDown now n l =>
    simp only [Cfg.react] at hr
    split at hr
    · rename_i p hp
      simp only [Option.some.injEq, Prod.mk.injEq] at hr
      obtain ⟨-, rfl⟩ := hr
      obtain ⟨hp, hn⟩ := find_some hp
      intro hrun q hq hu
      simp only [Ev.upAfter, Bool.and_eq_true, bne_iff_ne] at hu
      simp only [Ctl.portChange, setDyn]
      have he : q.number ≠ p.number := fun he => hu.1 (he.trans hn)
      rw [if_neg he, if_neg he]
      exact h hrun q hq hu.2
    · rename_i hp
      cases hr
      intro hrun q hq hu
      simp only [Ev.upAfter, Bool.and_eq_true, bne_iff_ne] at hu
      obtain ⟨h1, h2⟩ := h hrun q hq hu.2
      refine ⟨h1, ?_⟩
      simp only [Ctl.setKnown]
      rw [if_neg hu.1]
      exact h2
  | lag n sel act =>
    simp only [Cfg.react] at hr
    split at hr
    · rename_i p hp
      rw [if_neg (by simp [hb.lacp p (find_some hp).1])] at hr
      cases hr; exact h
    · cases hr; exact h
  | srcRemoved vid n m =>
    simp only [Cfg.react] at hr
    obtain ⟨st, -, h2⟩ := Option.map_eq_some_iff.1 hr
    obtain rfl := congrArg Prod.snd h2
    exact h
  | dstRemoved now vid m =>
    simp only [Cfg.react] at hr
    obtain ⟨⟨ms', st⟩, -, h2⟩ := Option.map_eq_some_iff.1 hr
    obtain rfl := congrArg Prod.snd h2
    exact h

theorem rinv_reload {s : Sys} {u : Nat → Bool} {q : PacketIn → Prop} (ih : RInv c s u q) (h : Reloadable c c' sec)
    (hch : (changes c c' sec).Same ch) (hrun : s.ctl.running = true)
    (hnew : ∀ p ∈ c'.ports, (∀ p0 ∈ c.ports, p0.number ≠ p.number) → u p.number = true → s.ctl.known p.number = true)
    {ms out : List OfMsg} {ctl : Ctl} (hr : reload c c' sec ch lag s.ctl = some (ms, ctl)) {sh : List OfMsg → List OfMsg}
    (hsh : ∀ l, (sh l).Perm l) {bar : Bool} (hout : FlowReorder.reorder sh bar ms = some out) :
    RInv c' ⟨ctl, s.sw.execAll out, s.seen⟩ u (fun k => q k ∧ SeenOk c' k) := by
  obtain ⟨hw, hb, hd, hi, ho, hq, hup⟩ := ih
  rw [reload_eq] at hr
  obtain ⟨st, hst, hcst, hh⟩ := reload_hosts (c' := c') (sec := sec) (ch := ch) hw hb hi ho
  rw [hst] at hr
  simp only [Option.map_some, Option.some.injEq, Prod.mk.injEq] at hr
  obtain ⟨rfl, rfl⟩ := hr
  rw [if_pos hrun] at hout
  obtain ⟨hcinv, hhosts⟩ := reload_learn hw h hch hi ho hcst hh
  have hknown : ∀ p ∈ c'.ports, u p.number = true → s.ctl.known p.number = true := by
    intro p hp hu
    by_cases hin : ∃ p0 ∈ c.ports, p0.number = p.number
    · obtain ⟨p0, hp0, hn⟩ := hin
      rw [← hn]
      exact (hup hrun p0 hp0 (by rw [hn]; exact hu)).2
    · exact hnew p hp (fun p0 hp0 hn => hin ⟨p0, hp0, hn⟩) hu
  have hphys : ∀ p ∈ c'.ports, u p.number = true → (∃ p0 ∈ c.ports, p0.number = p.number) → (s.ctl.dyn p.number).physUp = true := by
    rintro p hp hu ⟨p0, hp0, hn⟩
    rw [← hn]
    exact (hup hrun p0 hp0 (by rw [hn]; exact hu)).1
  have hwend : ∀ p ∈ c'.ports, u p.number = true → ((warm c c' sec ch s.ctl.known lag s.ctl.dyn).dEnd p.number).physUp = true :=
    fun p hp hu => (warm_up h hch hp (hknown p hp hu) (hphys p hp hu)).2
  refine ⟨h.wf, h.basic, ⟨?_, ?_, ?_, ?_⟩, hcinv, hhosts, fun k hk => ⟨(hq k hk.1).1, hk.2⟩, ?_⟩
  · exact reload_flows hw hb h hch hsh hout hd.flows
  · refine reload_present hw hb h hch (u := u) (fun p hp _ hu => hknown p hp hu) ?_ (fun p hp _ hu => hwend p hp hu) hsh hout hd.flows hd.present
    intro p hp _ hadd hkn
    exact connectDyn_up h.wf _ _ hp (List.mem_filter.2 ⟨hadd, hkn⟩)
  · intro vid m e b hvid he hbb
    obtain ⟨h1, h2, h3, -⟩ := (hh vid m e).1 he
    rw [dstSlot_same h hb] at hbb
    have hold := dst_left hb h hsh hout (show (Learn.dstSlot c.learn vid m).table = c.td from rfl) hbb
    obtain ⟨n, hn, hsp⟩ := hd.dst vid m e b hvid h1 hold
    obtain ⟨p, hp, hpn, hin⟩ := ho vid m e h1
    have hp' := port_same hw h hch hp (by rw [hpn]; exact h2) (by rw [hpn]; exact h3)
    rcases hsp with rfl | ⟨hl, -⟩
    · refine ⟨_, ?_, Or.inl rfl⟩
      rw [hn, ← hpn, dstInst_same hb h.basic hw h.wf hp hp']
    · exact absurd (hostPort_plain hb _).2.2.1 hl
  · intro vid m e he
    exact hd.hosts vid m e ((hh vid m e).1 he).1
  · intro _ p hp hu
    exact ⟨hwend p hp hu, hknown p hp hu⟩

theorem runR_inv {s : Sys} {u : Nat → Bool} {q : PacketIn → Prop} (h : RunR c s u q) : RInv c s u q := by
  induction h with
  | @start c sw0 now up lag ms ctl sh bar out hw hb hsh hr hout =>
    refine ⟨hw, hb, dinv_connect hw hb hsh hr hout, ?_, ?_, fun k hk => hk.elim, upOk_connect hw hr⟩
    all_goals
      have hinit : HostsOk c Ctl.init.learn := by
        intro vid m e he; simp [host, Ctl.init, Learn.St.init, HostCache.cachedHost] at he
      have := react_ok (Learn.cinv_init _) hinit (by intro now k h; cases h) hr
      first | exact this.2.1 | exact this.2.2
  | event _ hsh hq hr hout ih =>
    have hs := fun now k hk => ih.seen k (hq now k hk)
    have hok := react_ok ih.cinv ih.hosts (fun now k hk => (hs now k hk).2) hr
    exact ⟨ih.wf, ih.basic, dinv_event ih.wf ih.basic ih.cinv ih.hosts hsh hs hr hout ih.rules, hok.2.1, hok.2.2, ih.seen,
      upOk_event ih.wf ih.basic ih.up hr⟩
  | packet _ hwire hpl hproc ih =>
    refine ⟨ih.wf, ih.basic, dinv_packet ih.rules _, ih.cinv, ih.hosts, ?_, ih.up⟩
    rintro x (hx | ⟨e, he, hport, rfl⟩)
    · exact ⟨Or.inl (ih.seen x hx).1, (ih.seen x hx).2⟩
    · exact ⟨Or.inr ⟨e, he, hport, rfl⟩,
        packet_seen ih.wf (flowsOk_u ih.basic ih.rules.flows) (groupsOk_u ih.basic _) hwire hpl hproc he hport⟩
  | timeout _ hf ht ih => exact ⟨ih.wf, ih.basic, dinv_timeout ih.basic ih.rules hf ht, ih.cinv, ih.hosts, ih.seen, ih.up⟩
  | reload _ h hch hrun hnew hr hsh hout ih => exact rinv_reload ih h hch hrun hnew hr hsh hout
  | @cold c c' s u q now up lag ctl0 ms ctl sh bar out _ hw hb hsh hr hout ih =>
    refine ⟨hw, hb, dinv_connect hw hb hsh hr hout, ?_, ?_, fun k hk => ⟨(ih.seen k hk.1).1, hk.2⟩, upOk_connect hw hr⟩
    all_goals
      simp only [Cfg.react, Option.some.injEq, Prod.mk.injEq] at hr
      obtain ⟨-, rfl⟩ := hr
    · exact ⟨fun vid => HostCache.inv_reset _, hosts_cold (P := fun _ _ e => e.port = c'.learn.port e.port.number)⟩
    · exact hosts_cold _

end Faucet.L2
