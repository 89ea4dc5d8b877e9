import Verif.L2.Isolation
import Verif.L2.DeliverySpec
import Verif.FlowReorder.Present

/-! # One standalone switch without special ports: exactly which rules there are -/

namespace Faucet.L2
open Faucet.OF
open Faucet.Learn (iInPort iEthDst iEthSrc iVlan host CInv)
open Faucet.HostCache (Port Entry)

abbrev Cfg.tc (c : Cfg) : Nat := c.classTable.id
abbrev Cfg.ts (c : Cfg) : Nat := (c.table .ethSrc).id
abbrev Cfg.td (c : Cfg) : Nat := (c.table .ethDst).id
abbrev Cfg.tf (c : Cfg) : Nat := (c.table .flood).id
/-- the tables of routing, if there are any -/
abbrev Cfg.tfib (c : Cfg) : Nat := (c.table .ipv4Fib).id
abbrev Cfg.tvip (c : Cfg) : Nat := (c.table .vip).id

variable {c : Cfg}

theorem Cfg.Basic.noHairpin (hb : c.Basic) : c.hasHairpin = false := by
  unfold Cfg.hasHairpin
  rw [List.any_eq_false]
  intro p hp
  simp [hb.hairpin p hp]

theorem Cfg.Basic.noExternals (hb : c.Basic) : c.hasExternals = false := by
  unfold Cfg.hasExternals
  rw [List.any_eq_false]
  intro p hp
  simp [hb.loop p hp]

theorem Cfg.Basic.conf (hb : c.Basic) : c.conf = cf false false c.useClassification c.ipv4 := by
  rw [conf_eq, hb.noEgress, hb.noHairpin]

structure Ids (k r : Bool) : Prop where
  src0 : Pipeline.idOf (cf false false k r) .ethSrc ≠ 0
  dst0 : Pipeline.idOf (cf false false k r) .ethDst ≠ 0
  flood0 : Pipeline.idOf (cf false false k r) .flood ≠ 0
  class0 : Pipeline.idOf (cf false false k r) (Pipeline.classTable (cf false false k r)) ≠ 0
  sd : Pipeline.idOf (cf false false k r) .ethSrc ≠ Pipeline.idOf (cf false false k r) .ethDst
  sf : Pipeline.idOf (cf false false k r) .ethSrc ≠ Pipeline.idOf (cf false false k r) .flood
  df : Pipeline.idOf (cf false false k r) .ethDst ≠ Pipeline.idOf (cf false false k r) .flood
  cd : Pipeline.idOf (cf false false k r) (Pipeline.classTable (cf false false k r)) ≠ Pipeline.idOf (cf false false k r) .ethDst
  cfl : Pipeline.idOf (cf false false k r) (Pipeline.classTable (cf false false k r)) ≠ Pipeline.idOf (cf false false k r) .flood
  cs : k = true → Pipeline.idOf (cf false false k r) (Pipeline.classTable (cf false false k r)) ≠ Pipeline.idOf (cf false false k r) .ethSrc
  cs' : k = false → Pipeline.idOf (cf false false k r) (Pipeline.classTable (cf false false k r)) = Pipeline.idOf (cf false false k r) .ethSrc
  out : Pipeline.idOf (cf false false k r) (Pipeline.outTable (cf false false k r)) = Pipeline.idOf (cf false false k r) .ethDst
  sAll : Pipeline.idOf (cf false false k r) .ethSrc ≠ tableAll
  dAll : Pipeline.idOf (cf false false k r) .ethDst ≠ tableAll
  fAll : Pipeline.idOf (cf false false k r) .flood ≠ tableAll
  cAll : Pipeline.idOf (cf false false k r) (Pipeline.classTable (cf false false k r)) ≠ tableAll
  route : r = true → ∀ t ∈ [Pipeline.Tbl.ipv4Fib, .vip], ∀ x ∈ [Pipeline.Tbl.vlan, .ethSrc, .ethDst, .flood, Pipeline.classTable (cf false false k r)],
    Pipeline.idOf (cf false false k r) t ≠ Pipeline.idOf (cf false false k r) x ∧ Pipeline.idOf (cf false false k r) t ≠ tableAll
  fv : r = true → Pipeline.idOf (cf false false k r) .ipv4Fib ≠ Pipeline.idOf (cf false false k r) .vip

theorem ids (k r : Bool) : Ids k r := by
  constructor <;> revert k r <;> decide

theorem Cfg.Basic.ids (hb : c.Basic) : c.tc = Pipeline.idOf (cf false false c.useClassification c.ipv4) (Pipeline.classTable (cf false false c.useClassification c.ipv4)) ∧
    c.ts = Pipeline.idOf (cf false false c.useClassification c.ipv4) .ethSrc ∧ c.td = Pipeline.idOf (cf false false c.useClassification c.ipv4) .ethDst ∧
    c.tf = Pipeline.idOf (cf false false c.useClassification c.ipv4) .flood := by
  refine ⟨?_, ?_, ?_, ?_⟩ <;> simp [Cfg.tc, Cfg.ts, Cfg.td, Cfg.tf, Cfg.classTable, Cfg.table, hb.conf]

/-- The rules there can be: slot, instructions, hard and idle timeout. `K` are the addresses that FAUCET has heard of. -/
inductive URule (c : Cfg) (K : Nat → Prop) : Slot → List Inst → Nat → Nat → Prop
  | dVlan : URule c K ⟨0, 0, []⟩ [] 0 0
  | dClass : c.useClassification = true → URule c K ⟨c.tc, 0, []⟩ [.goto c.ts] 0 0
  | dSrc : URule c K ⟨c.ts, 0, []⟩ [.goto c.td] 0 0
  | dDst : URule c K ⟨c.td, 0, []⟩ [.goto c.tf] 0 0
  | dFlood : URule c K ⟨c.tf, 0, []⟩ [] 0 0
  | dFib : c.ipv4 = true → URule c K ⟨c.tfib, 0, []⟩ [] 0 0
  | dVip : c.ipv4 = true → URule c K ⟨c.tvip, 0, []⟩ [] 0 0
  | untagged {p : LPort} {vid} : p ∈ c.ports → p.native = some vid → URule c K ⟨0, lowPriority, [iInPort p.number, iUntagged]⟩
      (trimInst [.apply (p.mirror.map .output ++ [.pushVlan 0x8100, .setField fVlanVid (vidPresent vid)]), .goto c.tc]) 0 0
  | tagged {p : LPort} {vid} : p ∈ c.ports → vid ∈ p.tagged → URule c K ⟨0, lowPriority, [iInPort p.number, iVlan vid]⟩
      (trimInst [.apply (p.mirror.map .output), .goto c.tc]) 0 0
  | untagMiss {p : LPort} : p ∈ c.ports → p.native = none → p.countUntagMiss = true → p.vids ≠ [] → URule c K ⟨0, lowPriority, [iInPort p.number, iUntagged]⟩ [] 0 0
  | lldp {p : LPort} : p ∈ c.ports → p.receiveLldp = true → URule c K ⟨0, c.dpHighest, lldpItems p.number⟩ [.apply [.output portController]] 0 0
  | outOnly {p : LPort} : p ∈ c.ports → p.outputOnly = true → URule c K ⟨0, c.dpHighest, [iInPort p.number]⟩ [] 0 0
  | bcast : URule c K ⟨c.tc, filterPriority, [iEthSrc broadcastMac]⟩ [] 0 0
  | ectp : URule c K ⟨c.tc, filterPriority + 10, [⟨fEthType, ectpType, none⟩]⟩ [] 0 0
  | spoof {v} : v ∈ c.vlans → URule c K ⟨c.tc, filterPriority, [iEthSrc v.faucetMac]⟩ [] 0 0
  | unknown {v} : v ∈ c.vlans → URule c K ⟨c.ts, lowPriority, [iVlan v.vid]⟩ [.apply [.output portController], .goto c.td] 0 0
  | src {n vid m h i} : K m → URule c K ⟨c.ts, matchPriority - 1, [iInPort n, iEthSrc m, iVlan vid]⟩ [.goto c.td] h i
  | ban {items} : ¬ c.Unlimited → URule c K ⟨c.ts, lowPriority + 1, items⟩ [] c.learnBan 0
  | dst {q vid m h i} : q ∈ c.ports → q.In vid → K m →
      URule c K ⟨c.td, matchPriority, [iEthDst m, iVlan vid]⟩ (Learn.dstInst c.learn q.number vid) h i
  | reserved {d} : d ∈ Flood.reservedDsts → URule c K ⟨c.tf, Flood.maskPriority (some d.2), [⟨fEthDst, d.1, some d.2⟩]⟩ [] 0 0
  | floodV {d v r} : v ∈ c.vlans → r ∈ c.flood.rows → c.combinatorial = false →
      URule c K ⟨c.tf, r.priority, r.items v.vid none⟩ (trimInst [.apply ((c.fvlan d v).vlanActs r.unicast)]) 0 0
  | floodP {d v r} {p : LPort} : v ∈ c.vlans → r ∈ c.flood.rows → p ∈ c.ports → p.In v.vid → (d p.number).physUp = true →
      URule c K ⟨c.tf, r.priority + 1, r.items v.vid (some p.number)⟩
        (trimInst [.apply ((c.fvlan d v).portActs r.unicast (fport d p) false r.ethType.isNone).1]) 0 0

/-- The deletes there can be, apart from that at a cold start: for a port, for a flood rule of a port, by the port that a
host is behind, or for a host. -/
inductive DelU (c : Cfg) (n : Option Nat) (f : FlowMod) : Prop
  | port {j} : n = some j → f.table = 0 ∨ f.table = c.ts → iInPort j ∈ f.mtch.items → DelU c n f
  | flood {j} : c.combinatorial = false → f.table = c.tf → iInPort j ∈ f.mtch.items → DelU c n f
  | out {j} : f.table = c.td → f.outPort = some j → DelU c n f
  | hostSrc {m} : f.table = c.ts → iEthSrc m ∈ f.mtch.items → DelU c n f
  | hostDst {m} : f.table = c.td → iEthDst m ∈ f.mtch.items → DelU c n f

/-- The messages there can be, apart from the delete at a cold start. `md`: with `MODIFY_STRICT`. -/
def MsgU (c : Cfg) (K : Nat → Prop) (n : Option Nat) (md : Bool) (m : OfMsg) : Prop :=
  match m with
  | .flow f =>
    (f.cmd = .add → URule c K f.slot f.inst f.hard f.idle) ∧
    (f.cmd = .modifyStrict → md = true ∧ f.table = c.tf ∧ URule c K f.slot f.inst 0 0) ∧
    (f.cmd = .delete → DelU c n f) ∧ f.cmd ≠ .deleteStrict
  | .group _ => False
  | .meter _ => False
  | _ => True

variable {K : Nat → Prop} {n : Option Nat} {md : Bool}

theorem msgU_of_add {f : FlowMod} (hc : f.cmd = .add) (hr : URule c K f.slot f.inst f.hard f.idle) : MsgU c K n md (.flow f) := by
  refine ⟨fun _ => hr, ?_, ?_, ?_⟩ <;> simp [hc]

theorem msgU_of_mod {f : FlowMod} (hc : f.cmd = .modifyStrict) (ht : f.table = c.tf) (hr : URule c K f.slot f.inst 0 0) :
    MsgU c K n true (.flow f) := by
  refine ⟨?_, fun _ => ⟨rfl, ht, hr⟩, ?_, ?_⟩ <;> simp [hc]

theorem msgU_add {t : Table} {items : List MatchItem} {prio : Nat} {inst : List Inst} {h i : Nat}
    (hr : URule c K ⟨t.id, prio, items⟩ (trimInst inst) h i) : MsgU c K n md (t.flowadd items prio inst h i) :=
  msgU_of_add rfl hr

theorem msgU_drop {t : Table} {items : List MatchItem} {prio : Nat} {h : Nat}
    (hr : URule c K ⟨t.id, prio, items⟩ [] h 0) : MsgU c K n md (t.flowdrop items prio h) :=
  msgU_add (inst := []) hr

theorem msgU_del {t : Table} {items : List MatchItem} {prio : Nat} {o : Option Nat}
    (hr : ∀ f : FlowMod, f.table = t.id → f.mtch.items = items → f.outPort = o → DelU c n f) : MsgU c K n md (t.flowdel items prio o) :=
  ⟨fun h => by simp at h, fun h => by simp at h, fun _ => hr _ rfl rfl rfl, by simp⟩

/-! ## Start -/

def defaultRules (k r : Bool) : List (Nat × List Inst) :=
  let t := fun n => Pipeline.idOf (cf false false k r) n
  [(0, [])] ++ (if k then [(t .classification, [.goto (t .ethSrc)])] else [])
    ++ [(t .ethSrc, [.goto (t .ethDst)])] ++ (if r then [(t .ipv4Fib, []), (t .vip, [])] else [])
    ++ [(t .ethDst, [.goto (t .flood)]), (t .flood, [])]

theorem default_rules (k r : Bool) : (Pipeline.tables (cf false false k r)).flatMap (fun t => (Pipeline.defaultFlow (cf false false k r) t).toList) =
    (defaultRules k r).map (fun x => (Table.mk x.1 0).flowadd [] 0 x.2) := by
  revert k r; decide

theorem class_on (r : Bool) : Pipeline.classTable (cf false false true r) = .classification := rfl

theorem defaults_u (hb : c.Basic) {m : OfMsg} (hm : m ∈ c.defaults) :
    m = (⟨tableAll, 0⟩ : Table).flowdel [] ∨ MsgU c K n md m := by
  unfold Cfg.defaults at hm
  rw [hb.noGroups, hb.conf, default_rules] at hm
  simp only [Bool.false_eq_true, if_false, List.append_nil, List.mem_append, List.mem_singleton] at hm
  rcases hm with hm | hm
  · exact Or.inl hm
  · right
    obtain ⟨x, hx, rfl⟩ := List.mem_map.1 hm
    obtain ⟨h1, h2, h3, h4⟩ := hb.ids
    apply msgU_add
    unfold defaultRules at hx
    simp only [List.mem_append, List.mem_singleton, List.mem_cons, List.not_mem_nil, or_false] at hx
    rcases hx with (((rfl | hx) | rfl) | hx) | rfl | rfl
    · exact .dVlan
    · split at hx
      · rename_i hk
        rw [List.mem_singleton.1 hx, Learn.trimInst_goto]
        have := URule.dClass (c := c) (K := K) hk
        rw [h1, h2, hk, class_on] at this
        simpa [hk] using this
      · cases hx
    · rw [Learn.trimInst_goto, ← h2, ← h3]; exact .dSrc
    · split at hx
      · rename_i hk
        simp only [List.mem_cons, List.not_mem_nil, or_false] at hx
        rcases hx with rfl | rfl
        · have := URule.dFib (c := c) (K := K) hk
          simp only [Cfg.tfib, Cfg.table, hb.conf] at this
          exact this
        · have := URule.dVip (c := c) (K := K) hk
          simp only [Cfg.tvip, Cfg.table, hb.conf] at this
          exact this
      · cases hx
    · rw [Learn.trimInst_goto, ← h3, ← h4]; exact .dDst
    · rw [← h4]; exact .dFlood

theorem pipelineInit_u {m : OfMsg} (hm : m ∈ c.pipelineInit) : MsgU c K n md m := by
  unfold Cfg.pipelineInit at hm
  rcases List.mem_append.1 hm with hm | hm
  · split at hm
    · rw [List.mem_singleton.1 hm]; exact msgU_drop .bcast
    · cases hm
  · rw [List.mem_singleton.1 hm]; exact msgU_drop .ectp

theorem initialise_u {m : OfMsg} (hm : m ∈ Flood.initialise c.flood) : MsgU c K n md m := by
  obtain ⟨d, hd, rfl⟩ := List.mem_map.1 hm
  exact msgU_drop (.reserved hd)

/-! ## VLANs -/

theorem mem_fvlan_ports {d : Nat → Dyn} {v : LVlan} {q : Flood.FPort} (h : q ∈ (c.fvlan d v).ports) :
    ∃ p ∈ c.ports, p.In v.vid ∧ q = fport d p := by
  unfold Flood.FVlan.ports at h
  simp only [List.mem_append] at h
  rcases h with (h | h) | h
  · obtain ⟨p, h1, h2, h3⟩ := mem_fports h; exact ⟨p, h1, Or.inr h2, h3⟩
  · obtain ⟨p, h1, h2, h3⟩ := mem_funtagged h; exact ⟨p, h1, Or.inl h2, h3⟩
  · simp [Cfg.fvlan] at h

theorem fvlan_ports_mem {d : Nat → Dyn} {v : LVlan} {p : LPort} (hp : p ∈ c.ports) (h : p.In v.vid) : fport d p ∈ (c.fvlan d v).ports := by
  unfold Flood.FVlan.ports
  simp only [List.mem_append]
  rcases h with h | h
  · exact Or.inl (Or.inr (List.mem_map.2 ⟨p, List.mem_filter.2 ⟨hp, by simp [h]⟩, rfl⟩))
  · exact Or.inl (Or.inl (List.mem_map.2 ⟨p, List.mem_filter.2 ⟨hp, by simpa using h⟩, rfl⟩))

theorem floodPorts_sub {l : List Flood.FPort} {eu : Bool} {q : Flood.FPort} (h : q ∈ Flood.floodPorts l eu) : q ∈ l := by
  unfold Flood.floodPorts at h
  split at h
  · exact (List.mem_filter.1 h).1
  · exact h

theorem portActs_phys {v : Flood.FVlan} {eu ae er : Bool} {p : Flood.FPort} (h : (v.portActs eu p ae er).1 ≠ []) : p.physUp = true := by
  unfold Flood.FVlan.portActs at h
  split at h
  · assumption
  · exact absurd rfl h

theorem portRule_u {d : Nat → Dyn} {v : LVlan} (hv : v ∈ c.vlans) {r : Flood.Row} (hr : r ∈ c.flood.rows) {q : Flood.FPort}
    (hq : q ∈ (c.fvlan d v).ports) (hne : ((c.fvlan d v).portActs r.unicast q false r.ethType.isNone).1 ≠ []) :
    MsgU c K n md (Flood.portRule c.flood (if md then .modifyStrict else .add) (c.fvlan d v) r q
      ((c.fvlan d v).portActs r.unicast q false r.ethType.isNone).1) := by
  obtain ⟨p, hp, hin, rfl⟩ := mem_fvlan_ports hq
  have hu := portActs_phys hne
  have := URule.floodP (K := K) (d := d) hv hr hp hin hu
  cases md with
  | true => exact msgU_of_mod rfl rfl this
  | false => exact msgU_of_add rfl this

theorem floodRules_u (hb : c.Basic) (d : Nat → Dyn) {v : LVlan} (hv : v ∈ c.vlans) (cold : Bool) {m : OfMsg}
    (hm : m ∈ Flood.floodRules c.flood (c.fvlan d v) cold md) : MsgU c K n md m := by
  unfold Flood.floodRules at hm
  have hg : c.flood.useGroups = false := hb.noGroups
  simp only [hg, Bool.false_eq_true, if_false, List.append_nil] at hm
  unfold Flood.multioutRules at hm
  obtain ⟨r, hr, hm⟩ := List.mem_flatMap.1 hm
  have hr := (List.mem_filter.1 hr).1
  unfold Flood.maskRules at hm
  split at hm
  · obtain ⟨p, hp, hm⟩ := List.mem_flatMap.1 hm
    unfold Flood.combinatorialRule at hm
    simp only at hm
    split at hm
    · cases hm
    · rename_i hne
      simp only [List.mem_singleton] at hm
      subst hm
      exact portRule_u hv hr (floodPorts_sub hp) hne
  · rename_i hcomb
    have hcomb : c.combinatorial = false := by simpa [Cfg.flood] using hcomb
    simp only [hg, Bool.false_eq_true, if_false] at hm
    rcases List.mem_append.1 hm with hm | hm
    · simp only [List.mem_singleton] at hm
      subst hm
      have := URule.floodV (K := K) (d := d) hv hr hcomb
      cases md with
      | true => exact msgU_of_mod rfl rfl this
      | false => exact msgU_of_add rfl this
    · obtain ⟨p, hp, hm⟩ := List.mem_flatMap.1 hm
      unfold Flood.besideVlan at hm
      simp only at hm
      split at hm
      · cases hm
      · rename_i hne
        split at hm
        · split at hm
          · cases hm
          · simp only [List.mem_singleton] at hm
            subst hm
            refine msgU_del ?_
            intro f h1 h2 h3
            refine .flood (j := p.number) hcomb h1 ?_
            rw [h2]; exact row_in r v.vid p.number
        · simp only [List.mem_singleton] at hm
          subst hm
          exact portRule_u hv hr (floodPorts_sub hp) hne

theorem trim_ctrl_goto (x : Nat) : trimInst [.apply [.output portController], .goto x] = [.apply [.output portController], .goto x] := by
  simp [trimInst, trimOne, Inst.isGoto, Action.isCt]

theorem addVlan_u (hb : c.Basic) (d : Nat → Dyn) (cold : Bool) {v : LVlan} (hv : v ∈ c.vlans) {m : OfMsg} (hm : m ∈ c.addVlan d cold v) :
    MsgU c K n false m := by
  unfold Cfg.addVlan at hm
  rcases List.mem_append.1 hm with hm | hm
  · rcases List.mem_append.1 hm with hm | hm
    · split at hm
      · rw [List.mem_singleton.1 hm]; exact msgU_drop (.spoof hv)
      · cases hm
    · have hm := Option.mem_toList.1 hm
      unfold Pipeline.unknownFlow at hm
      rw [hb.conf, goto_out] at hm
      simp only [Option.map_some, Option.mem_def, Option.some.injEq] at hm
      subst hm
      obtain ⟨h1, h2, h3, h4⟩ := hb.ids
      apply msgU_add
      rw [trim_ctrl_goto, (ids _ _).out, ← h2, ← h3]
      exact .unknown hv
  · exact floodRules_u hb d hv cold hm

theorem updateVlan_u (hb : c.Basic) (d : Nat → Dyn) {v : LVlan} (hv : v ∈ c.vlans) {m : OfMsg} (hm : m ∈ c.updateVlan d v) :
    MsgU c K n true m := floodRules_u hb d hv false hm

/-! ## Ports -/

theorem Cfg.Basic.ext (hb : c.Basic) (p : LPort) : c.extFlag p = none := by simp [Cfg.extFlag, hb.noExternals]

theorem vlanRule_u (hb : c.Basic) {p : LPort} (hp : p ∈ c.ports) {push : Bool} {vid : Nat}
    (h : if push then p.native = some vid else vid ∈ p.tagged) {m : OfMsg} (hm : m ∈ c.vlanRule p push vid) : MsgU c K n md m := by
  have hm := Option.mem_toList.1 hm
  unfold Pipeline.portVlanFlow at hm
  have hf : Pipeline.forwardingTable c.conf (c.portVlan p push vid) = Pipeline.classTable c.conf := rfl
  rw [hf, hb.conf, goto_class] at hm
  simp only [Option.map_some, Option.mem_def, Option.some.injEq] at hm
  subst hm
  have hid := hb.ids.1
  apply msgU_add
  simp only [vlan_zero, ← hid]
  cases push with
  | true =>
    have := URule.untagged (K := K) hp (by simpa using h : p.native = some vid)
    simpa [Cfg.portVlan, hb.ext, iInPort, iUntagged] using this
  | false =>
    have := URule.tagged (K := K) hp (by simpa using h : vid ∈ p.tagged)
    simpa [Cfg.portVlan, hb.ext, iInPort, iVlan] using this

theorem portAdd_u (hb : c.Basic) {p : LPort} (hp : p ∈ c.ports) {m : OfMsg} (hm : m ∈ c.portAdd p) : MsgU c K n md m := by
  unfold Cfg.portAdd at hm
  simp only [List.mem_append] at hm
  rcases hm with ((hm | hm) | hm) | hm
  · unfold Cfg.egressAdd at hm
    rw [hb.noEgress] at hm
    simp at hm
  · unfold Cfg.switchAdd at hm
    split at hm
    · cases hm
    · rename_i hvids
      simp only [hb.lacp p hp, ne_eq, not_true_eq_false, if_false, List.append_nil] at hm
      rcases List.mem_append.1 hm with hm | hm
      · obtain ⟨vid, hv, hm⟩ := List.mem_flatMap.1 hm
        exact vlanRule_u hb hp (push := false) (by simpa using hv) hm
      · unfold Cfg.untaggedRule at hm
        split at hm
        · rename_i vid hn
          exact vlanRule_u hb hp (push := true) (by simpa using hn) hm
        · rename_i hn
          split at hm
          · rename_i hcu
            rw [List.mem_singleton.1 hm]
            refine msgU_drop ?_
            rw [vlan_table]
            exact .untagMiss hp hn hcu hvids
          · cases hm
  · unfold Cfg.lldpAdd at hm
    split at hm
    · rename_i hl
      rw [List.mem_singleton.1 hm]
      refine msgU_add ?_
      rw [trim_ctrl, vlan_table]
      exact .lldp hp hl
    · cases hm
  · unfold Cfg.outOnlyAdd at hm
    split at hm
    · rename_i ho
      rw [List.mem_singleton.1 hm]
      refine msgU_drop ?_
      rw [vlan_table]
      exact .outOnly hp ho
    · cases hm

theorem Cfg.Basic.learnHairpin (hb : c.Basic) : c.learn.hairpin = none := by
  simp [Cfg.learn, Cfg.hairpinTable, hb.noHairpin]

theorem portDel_u (hb : c.Basic) {p : LPort} (hp : p ∈ c.ports) {m : OfMsg} (hm : m ∈ c.portDel p) : MsgU c K (some p.number) md m := by
  have h0 := vlan_table c
  unfold Cfg.portDel at hm
  simp only [List.mem_append] at hm
  rcases hm with ((hm | hm) | hm) | hm
  · unfold Cfg.egressDel at hm
    rw [hb.noEgress] at hm
    simp at hm
  · unfold Cfg.switchDel at hm
    split at hm
    · cases hm
    · simp only [hb.lacp p hp, ne_eq, not_true_eq_false, if_false, List.append_nil, List.mem_append] at hm
      rcases hm with (hm | hm) | hm
      · unfold Learn.delHostFlows at hm
        simp only [hb.learnHairpin, List.append_nil, List.mem_cons, List.not_mem_nil, or_false] at hm
        rcases hm with rfl | rfl
        · exact msgU_del (fun f h1 h2 h3 => .port rfl (Or.inr h1) (by rw [h2]; simp))
        · exact msgU_del (fun f h1 h2 h3 => .out h1 h3)
      · split at hm
        · rw [List.mem_singleton.1 hm]
          exact msgU_del (fun f h1 h2 h3 => .port rfl (Or.inl (h1.trans h0)) (by rw [h2]; simp))
        · cases hm
      · obtain ⟨vid, -, rfl⟩ := List.mem_map.1 hm
        exact msgU_del (fun f h1 h2 h3 => .port rfl (Or.inl (h1.trans h0)) (by rw [h2]; simp))
  · unfold Cfg.lldpDel at hm
    split at hm
    · rw [List.mem_singleton.1 hm]
      exact msgU_del (fun f h1 h2 h3 => .port rfl (Or.inl (h1.trans h0)) (by rw [h2]; simp [lldpItems]))
    · cases hm
  · unfold Cfg.outOnlyDel at hm
    split at hm
    · rw [List.mem_singleton.1 hm]
      exact msgU_del (fun f h1 h2 h3 => .port rfl (Or.inl (h1.trans h0)) (by rw [h2]; simp))
    · cases hm

theorem change_none (hb : c.Basic) {p : LPort} (hp : p ∈ c.ports) (l : LagChange) : p.change l = none := by
  simp [LPort.change, hb.lacp p hp]

theorem connect_u (hb : c.Basic) (d : Nat → Dyn) (up : List Nat) (lag : Nat → LagChange) {m : OfMsg} (hm : m ∈ c.connectMsgs d up lag) :
    m = (⟨tableAll, 0⟩ : Table).flowdel [] ∨ MsgU c K n false m := by
  unfold Cfg.connectMsgs at hm
  simp only [List.mem_append] at hm
  rcases hm with (((hm | hm) | hm) | hm) | hm
  · exact defaults_u hb hm
  · exact Or.inr (pipelineInit_u hm)
  · exact Or.inr (initialise_u hm)
  · obtain ⟨p, hp, hm⟩ := List.mem_flatMap.1 hm
    unfold Cfg.connectPort at hm
    rw [change_none hb hp] at hm
    split at hm
    · simp only [Cfg.changeMsgs, List.append_nil] at hm
      exact Or.inr (portAdd_u hb hp hm)
    · cases hm
  · obtain ⟨v, hv, hm⟩ := List.mem_flatMap.1 hm
    exact Or.inr (addVlan_u hb d true hv hm)

theorem upMsgs_u (hb : c.Basic) (d : Nat → Dyn) {p : LPort} (hp : p ∈ c.ports) (l : LagChange) {m : OfMsg} (hm : m ∈ c.upMsgs d p l) :
    MsgU c K n false m := by
  unfold Cfg.upMsgs at hm
  rw [change_none hb hp] at hm
  split at hm
  · simp only [Cfg.changeMsgs, List.append_nil, List.mem_append] at hm
    rcases hm with hm | hm
    · exact portAdd_u hb hp hm
    · obtain ⟨v, hv, hm⟩ := List.mem_flatMap.1 hm
      exact addVlan_u hb d false (mem_vlansOf hv) hm
  · cases hm

theorem msgU_md {m : OfMsg} (h : MsgU c K n false m) : MsgU c K n true m := by
  cases m with
  | flow f => exact ⟨h.1, fun hc => absurd (h.2.1 hc).1 (by simp), h.2.2⟩
  | _ => exact h

theorem downMsgs_u (hb : c.Basic) (d : Nat → Dyn) {p : LPort} (hp : p ∈ c.ports) (l : LagChange) {m : OfMsg} (hm : m ∈ c.downMsgs d p l) :
    MsgU c K (some p.number) true m := by
  unfold Cfg.downMsgs at hm
  simp only [hb.lacp p hp, ne_eq, not_true_eq_false, if_false] at hm
  rcases List.mem_append.1 hm with hm | hm
  · exact portDel_u hb hp hm
  · obtain ⟨v, hv, hm⟩ := List.mem_flatMap.1 hm
    exact updateVlan_u hb d (mem_vlansOf hv) hm

end Faucet.L2
