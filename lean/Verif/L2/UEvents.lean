import Verif.L2.URules
import Verif.Learn.Switch

/-! # One standalone switch without special ports: events keep the rules that delivery needs -/

namespace Faucet.L2
open Faucet.OF
open Faucet.Learn (iInPort iEthDst iEthSrc iVlan host CInv)
open Faucet.HostCache (Port Entry)

variable {c : Cfg} {K : Nat → Prop} {n : Option Nat} {md : Bool}

/-! ## Learning -/

theorem hostPort_plain (hb : c.Basic) (n : Nat) : (c.hostPort n).permanentLearn = false ∧ (c.hostPort n).loopProtect = false ∧
    (c.hostPort n).lacp = 0 ∧ (c.hostPort n).hairpin = false ∧ (c.hostPort n).hairpinUnicast = false := by
  unfold Cfg.hostPort
  cases h : c.find n with
  | none => exact ⟨rfl, rfl, rfl, rfl, rfl⟩
  | some p =>
    have hp := (find_some h).1
    exact ⟨hb.permanent p hp, (hb.loop p hp).1, hb.lacp p hp, (hb.hairpin p hp).1, (hb.hairpin p hp).2⟩

theorem limit_unlimited {st : Learn.St} {n vid m : Nat} (h : Learn.LimitReached c.learn st n vid m) : ¬ c.Unlimited := by
  rintro ⟨h1, h2⟩
  rcases h.2 with ⟨h3, -⟩ | ⟨h3, -⟩
  · apply h3
    show (c.hostPort n).maxHosts = 0
    unfold Cfg.hostPort
    cases hf : c.find n with
    | none => rfl
    | some p => exact h1 p (find_some hf).1
  · apply h3
    show c.vlanMax vid = 0
    unfold Cfg.vlanMax
    cases hf : c.vlan vid with
    | none => rfl
    | some v => exact h2 v (vlan_some hf).1

theorem tempBan_u (hl : ¬ c.Unlimited) (items : List MatchItem) : MsgU c K n md (Learn.tempBan c.learn items) :=
  msgU_drop (.ban hl)

theorem deleteHost_u (hb : c.Basic) {m vid : Nat} {x : OfMsg} (hx : x ∈ Learn.deleteHost c.learn m vid) : MsgU c K n md x := by
  unfold Learn.deleteHost at hx
  simp only [hb.learnHairpin, List.append_nil, List.mem_cons, List.not_mem_nil, or_false] at hx
  rcases hx with rfl | rfl
  · exact msgU_del (fun f h1 h2 h3 => .hostSrc (m := m) h1 (by rw [h2]; simp))
  · exact msgU_del (fun f h1 h2 h3 => .hostDst (m := m) h1 (by rw [h2]; simp))

theorem Cfg.Basic.outputTable (hb : c.Basic) : Learn.outputTable c.learn = c.td := by
  unfold Learn.outputTable
  rw [hb.learnHairpin]
  rfl

theorem Cfg.Basic.learnExt (hb : c.Basic) : Learn.extFlag c.learn = none := by
  have : c.learn.hasExternals = false := hb.noExternals
  simp [Learn.extFlag, this]

theorem learnMsg_u (hb : c.Basic) {q : LPort} (hq : q ∈ c.ports) {p : Port} (hn : p.number = q.number) {vid m : Nat} (hin : q.In vid)
    (hk : K m) {del refresh : Bool} {tmo : Nat × Nat × Nat} {x : OfMsg} (h : Learn.LearnMsg c.learn p vid m del refresh tmo x) :
    MsgU c K n md x := by
  cases h with
  | del _ x hx => exact deleteHost_u hb hx
  | src =>
    apply msgU_add
    rw [Learn.trimInst_goto, hb.outputTable]
    exact .src hk
  | dst _ =>
    apply msgU_add
    rw [Learn.trimInst_dst, hn, hb.learnExt]
    exact .dst hq hin hk
  | dst2 h _ _ =>
    have : c.learn.hasExternals = false := hb.noExternals
    rw [this] at h; cases h
  | hairpin _ t ht => rw [hb.learnHairpin] at ht; cases ht

/-- The hosts that FAUCET knows are among the addresses it has heard of. -/
def HostsK (K : Nat → Prop) (st : Learn.St) : Prop := ∀ vid m e, host st vid m = some e → K m

theorem rcv_u (hb : c.Basic) {st : Learn.St} (hi : CInv c.learn st) (hh : HostsK K st) {now : Int} {j vid m : Nat}
    (hq : ∃ q ∈ c.ports, q.number = j ∧ q.In vid) (hk : K m) {ms : List OfMsg} {st' : Learn.St}
    (h : Learn.rcvPacket c.learn st now (c.hostPort j) vid m = some (ms, st')) :
    (∀ x ∈ ms, MsgU c K n md x) ∧ HostsK K st' := by
  have hw := learn_wf c
  obtain ⟨q, hq, hn, hin⟩ := hq
  obtain ⟨msgs, st'', h1, h2⟩ := Learn.rcv_outcome hw hi now j vid m
  have h1' : Learn.rcvPacket c.learn st now (c.hostPort j) vid m = some (msgs, st'') := h1
  rw [h] at h1'
  cases h1'
  cases h2 with
  | limit hl =>
    refine ⟨?_, hh⟩
    intro x hx
    obtain ⟨items, rfl⟩ := Learn.banRules_simple st _ vid m x hx
    exact tempBan_u (limit_unlimited hl) items
  | perm _ e he hp _ hm =>
    rw [hi.port vid m e he] at hp
    have : (c.hostPort e.port.number).permanentLearn = true := hp
    rw [(hostPort_plain hb _).1] at this
    cases this
  | fresh _ =>
    refine ⟨?_, hh⟩
    intro x hx
    cases hx
  | ban _ _ _ hl v' hadd =>
    have : (c.hostPort j).loopProtect = true := hl.1
    rw [(hostPort_plain hb _).2.1] at this
    cases this
  | learn _ _ _ _ v' hadd del refresh hd =>
    obtain ⟨-, -, h3, -⟩ := Learn.add_effect hw hi hadd
    constructor
    · intro x hx
      refine learnMsg_u hb hq ?_ hin hk (Learn.mem_learnFlows.1 hx)
      show (c.hostPort j).number = q.number
      rw [hostPort_number, hn]
    · intro vid' m' e he
      rw [Learn.host_setVlan] at he
      by_cases hv : vid' = vid
      · rw [if_pos hv] at he
        simp only [h3] at he
        by_cases hm : m = m'
        · rw [← hm]; exact hk
        · rw [if_neg hm] at he
          exact hh vid m' e he
      · rw [if_neg hv] at he
        exact hh vid' m' e he

theorem dst_u (hb : c.Basic) {st : Learn.St} (hi : CInv c.learn st) (ho : HostsOk c st) (hh : HostsK K st) {now : Int} {vid m : Nat}
    {ms : List OfMsg} {st' : Learn.St} (h : Learn.react c.learn st (.dstRemoved now vid m) = some (ms, st')) :
    (∀ x ∈ ms, MsgU c K n md x) ∧ HostsK K st' := by
  obtain ⟨msgs, st'', h1, h2, -⟩ := Learn.dstRemoved_effect (cfg := c.learn) (st := st) now vid m
  rw [h] at h1
  cases h1
  have hhost : ∀ vid m, host st' vid m = host st vid m := fun vid m => by unfold host; rw [h2]
  refine ⟨?_, fun v x e he => hh v x e (by rw [← hhost]; exact he)⟩
  intro x hx
  simp only [Learn.react] at h
  split at h
  · simp only [Option.some.injEq] at h
    unfold Learn.dstRuleExpire at h
    split at h
    · rename_i e he
      have hms : ms = (Learn.learnHostOnVlanPorts c.learn st now e.port vid m false none).msgs := by
        exact (congrArg Prod.fst h).symm
      obtain ⟨q, hq, hn, hin⟩ := ho vid m e he
      have hpe : e.port = c.hostPort e.port.number := hi.port vid m e he
      have hpl := hostPort_plain hb e.port.number
      rw [← hpe] at hpl
      rw [hms] at hx
      unfold Learn.learnHostOnVlanPorts at hx
      simp only [he] at hx
      split at hx
      · rename_i msgs hp
        obtain ⟨e', he', hp'⟩ := Learn.permCheck_some hp
        cases he'
        rw [hpl.1] at hp'; cases hp'
      · split at hx
        · cases hx
        · split at hx
          · rename_i hl
            simp [Learn.loopBan, hpl.2.1] at hl
          · exact learnMsg_u hb hq hn.symm hin (hh vid m e he) (Learn.mem_learnFlows.1 hx)
    · have : ms = [] := (congrArg Prod.fst h).symm
      rw [this] at hx; cases hx
  · cases h; cases hx

/-! ## Events -/

/-- The port that an event takes down. -/
def Ev.gone : Ev → Option Nat
  | .portDown _ j _ => some j
  | _ => none

def Ev.isConnect : Ev → Bool
  | .connect _ _ _ => true
  | _ => false

theorem accepted_known {running : Bool} {k : PacketIn} {vid : Nat} (h : c.accepted running k = some vid) :
    (∃ t r, k.tags = t :: r ∧ t.1 = vid) ∧ (c.vlan vid).isSome ∧ goodSource k.src = true := by
  unfold Cfg.accepted at h
  split at h
  · cases h
  · rename_i t r ht
    split at h
    · rename_i ha
      simp only [Bool.and_eq_true] at ha
      obtain rfl := Option.some.inj h
      exact ⟨⟨t, r, ht, rfl⟩, ha.1.2, ha.2⟩
    · cases h

theorem react_u (hb : c.Basic) {s : Ctl} (hi : CInv c.learn s.learn) (ho : HostsOk c s.learn) (hh : HostsK K s.learn) {ev : Ev}
    (hs : ∀ now k, ev = .packetIn now k → SeenOk c k ∧ (goodSource k.src = true → K k.src)) (hne : ev.isConnect = false)
    {ms : List OfMsg} {s' : Ctl} (h : c.react s ev = some (ms, s')) :
    (∀ m ∈ ms, MsgU c K ev.gone true m) ∧ HostsK K s'.learn := by
  have hnil : ∀ m ∈ ([] : List OfMsg), MsgU c K ev.gone true m := fun m hm => by cases hm
  cases ev with
  | connect now up lag => simp [Ev.isConnect] at hne
  | disconnect now lag =>
    simp only [Cfg.react, Option.map_eq_some_iff, Prod.mk.injEq] at h
    obtain ⟨st, hst, rfl, rfl⟩ := h
    have hi' := cinv_update now c.ports hi
    have hr := forgetAll_removal c.ports hi' hst
    refine ⟨hnil, ?_⟩
    intro vid m e he
    exact hh vid m e (by rw [← host_update now c.ports s.learn vid m]; exact hr.keep vid m e he)
  | packetIn now k =>
    obtain ⟨hk, hK⟩ := hs now k rfl
    simp only [Cfg.react] at h
    split at h
    · rename_i vid hv
      simp only [Option.map_eq_some_iff] at h
      obtain ⟨⟨ms', st⟩, h1, h2⟩ := h
      simp only [Ctl.withLearn, Prod.mk.injEq] at h2
      obtain ⟨rfl, rfl⟩ := h2
      obtain ⟨⟨t, r, ht, rfl⟩, hvl, hg⟩ := accepted_known hv
      exact rcv_u hb hi hh (hk t r ht hvl) (hK hg) h1
    · simp only [Option.some.injEq, Prod.mk.injEq] at h
      obtain ⟨rfl, rfl⟩ := h
      exact ⟨hnil, hh⟩
  | expire now vid =>
    simp only [Cfg.react] at h
    split at h
    · obtain ⟨ex, st, h1, -, h2, -⟩ := Learn.sweep_effect hi now vid
      rw [h1] at h
      simp only [Option.map_some, Ctl.withLearn, Option.some.injEq, Prod.mk.injEq] at h
      obtain ⟨rfl, rfl⟩ := h
      refine ⟨?_, fun vid m e he => hh vid m e (h2.keep vid m e he)⟩
      intro x hx
      split at hx
      · cases hx
      · obtain ⟨e, -, hx⟩ := List.mem_flatMap.1 hx
        exact deleteHost_u hb hx
    · simp only [Option.some.injEq, Prod.mk.injEq] at h
      obtain ⟨rfl, rfl⟩ := h
      exact ⟨hnil, hh⟩
  | portUp now j lag =>
    simp only [Cfg.react] at h
    split at h
    · rename_i p hp
      simp only [Option.some.injEq, Prod.mk.injEq] at h
      obtain ⟨rfl, rfl⟩ := h
      exact ⟨fun m hm => msgU_md (upMsgs_u hb _ (find_some hp).1 _ hm), hh⟩
    · simp only [Option.some.injEq, Prod.mk.injEq] at h
      obtain ⟨rfl, rfl⟩ := h
      exact ⟨hnil, hh⟩
  | portDown now j lag =>
    simp only [Cfg.react] at h
    split at h
    · rename_i p hp
      simp only [Option.some.injEq, Prod.mk.injEq] at h
      obtain ⟨rfl, rfl⟩ := h
      have hp' := (find_some hp).1
      rw [← (find_some hp).2]
      exact ⟨fun m hm => downMsgs_u hb _ hp' _ hm, hh⟩
    · simp only [Option.some.injEq, Prod.mk.injEq] at h
      obtain ⟨rfl, rfl⟩ := h
      exact ⟨hnil, hh⟩
  | lag j sel act =>
    simp only [Cfg.react] at h
    split at h
    · rename_i p hp
      rw [if_neg (by simp [hb.lacp p (find_some hp).1])] at h
      simp only [Option.some.injEq, Prod.mk.injEq] at h
      obtain ⟨rfl, rfl⟩ := h
      exact ⟨hnil, hh⟩
    · simp only [Option.some.injEq, Prod.mk.injEq] at h
      obtain ⟨rfl, rfl⟩ := h
      exact ⟨hnil, hh⟩
  | srcRemoved vid j m =>
    obtain ⟨st, h1, h2, -⟩ := Learn.srcRemoved_effect (learn_wf c) hi vid j m
    simp only [Cfg.react, h1, Option.map_some, Ctl.withLearn, Option.some.injEq, Prod.mk.injEq] at h
    obtain ⟨rfl, rfl⟩ := h
    exact ⟨hnil, fun vid m e he => hh vid m e (h2.keep vid m e he)⟩
  | dstRemoved now vid m =>
    simp only [Cfg.react, Option.map_eq_some_iff] at h
    obtain ⟨⟨ms', st⟩, h1, h2⟩ := h
    simp only [Ctl.withLearn, Prod.mk.injEq] at h2
    obtain ⟨rfl, rfl⟩ := h2
    exact dst_u hb hi ho hh h1

/-! ## Rules of the switch -/

def UBody (c : Cfg) (K : Nat → Prop) (sl : Slot) (b : Option Body) : Prop := ∀ x, b = some x → URule c K sl x.inst x.hard x.idle

def UFlows (c : Cfg) (K : Nat → Prop) (sw : Switch) : Prop := ∀ sl, UBody c K sl (sw.flows sl)

theorem Cfg.Basic.distinct (hb : c.Basic) : c.tc ≠ 0 ∧ c.ts ≠ 0 ∧ c.td ≠ 0 ∧ c.tf ≠ 0 ∧ c.ts ≠ c.td ∧ c.ts ≠ c.tf ∧ c.td ≠ c.tf ∧
    c.tc ≠ c.td ∧ c.tc ≠ c.tf ∧ (c.useClassification = true → c.tc ≠ c.ts) ∧ (c.useClassification = false → c.tc = c.ts) ∧
    c.ts ≠ tableAll ∧ c.td ≠ tableAll ∧ c.tf ≠ tableAll ∧ c.tc ≠ tableAll := by
  obtain ⟨h1, h2, h3, h4⟩ := hb.ids
  have i := L2.ids c.useClassification c.ipv4
  rw [h1, h2, h3, h4]
  exact ⟨i.class0, i.src0, i.dst0, i.flood0, i.sd, i.sf, i.df, i.cd, i.cfl, i.cs, i.cs', i.sAll, i.dAll, i.fAll, i.cAll⟩

/-- A table that is none of those of switching. -/
structure Away (c : Cfg) (t : Nat) : Prop where
  zero : t ≠ 0
  cls : t ≠ c.tc
  src : t ≠ c.ts
  dst : t ≠ c.td
  flood : t ≠ c.tf
  all : t ≠ tableAll

theorem Cfg.Basic.distinctR (hb : c.Basic) (hr : c.ipv4 = true) : (Away c c.tfib ∧ Away c c.tvip) ∧ c.tfib ≠ c.tvip := by
  obtain ⟨h1, h2, h3, h4⟩ := hb.ids
  have i := L2.ids c.useClassification c.ipv4
  have hfib : c.tfib = Pipeline.idOf (cf false false c.useClassification c.ipv4) .ipv4Fib := by simp [Cfg.tfib, Cfg.table, hb.conf]
  have hvip : c.tvip = Pipeline.idOf (cf false false c.useClassification c.ipv4) .vip := by simp [Cfg.tvip, Cfg.table, hb.conf]
  refine ⟨?_, by rw [hfib, hvip]; exact i.fv hr⟩
  have key : ∀ x ∈ [Pipeline.Tbl.ipv4Fib, .vip], Pipeline.idOf (cf false false c.useClassification c.ipv4) x ≠ 0 ∧
      Pipeline.idOf (cf false false c.useClassification c.ipv4) x ≠
        Pipeline.idOf (cf false false c.useClassification c.ipv4) (Pipeline.classTable (cf false false c.useClassification c.ipv4)) ∧
      Pipeline.idOf (cf false false c.useClassification c.ipv4) x ≠ Pipeline.idOf (cf false false c.useClassification c.ipv4) .ethSrc ∧
      Pipeline.idOf (cf false false c.useClassification c.ipv4) x ≠ Pipeline.idOf (cf false false c.useClassification c.ipv4) .ethDst ∧
      Pipeline.idOf (cf false false c.useClassification c.ipv4) x ≠ Pipeline.idOf (cf false false c.useClassification c.ipv4) .flood ∧
      Pipeline.idOf (cf false false c.useClassification c.ipv4) x ≠ tableAll := by
    intro x hx
    have r := i.route hr x hx
    refine ⟨?_, (r _ (by simp)).1, (r _ (by simp)).1, (r _ (by simp)).1, (r _ (by simp)).1, (r .vlan (by simp)).2⟩
    have := (r .vlan (by simp)).1
    rwa [vlan_zero] at this
  rw [← h1, ← h2, ← h3, ← h4] at key
  constructor
  · obtain ⟨a, b, d, e, f, g⟩ := key .ipv4Fib (by simp)
    rw [← hfib] at a b d e f g
    exact ⟨a, b, d, e, f, g⟩
  · obtain ⟨a, b, d, e, f, g⟩ := key .vip (by simp)
    rw [← hvip] at a b d e f g
    exact ⟨a, b, d, e, f, g⟩

theorem Cfg.Basic.fib (hb : c.Basic) (hr : c.ipv4 = true) : Away c c.tfib := (hb.distinctR hr).1.1

theorem Cfg.Basic.vip (hb : c.Basic) (hr : c.ipv4 = true) : Away c c.tvip := (hb.distinctR hr).1.2

theorem flood_permanent (hb : c.Basic) {sl : Slot} {inst : List Inst} {h i : Nat} (hr : URule c K sl inst h i) (ht : sl.table = c.tf) :
    h = 0 ∧ i = 0 := by
  obtain ⟨-, -, -, -, -, hsf, hdf, -⟩ := hb.distinct
  cases hr <;> first | exact ⟨rfl, rfl⟩ | exact absurd ht hsf | exact absurd ht hdf

/-- What adds and modifies may do. -/
def AddU (c : Cfg) (K : Nat → Prop) (m : OfMsg) : Prop :=
  match m with
  | .flow f => (f.cmd = .add → URule c K f.slot f.inst f.hard f.idle) ∧
      (f.cmd = .modifyStrict → f.table = c.tf ∧ URule c K f.slot f.inst 0 0)
  | _ => True

theorem MsgU.add {m : OfMsg} (h : MsgU c K n md m) : AddU c K m := by
  cases m with
  | flow f => exact ⟨h.1, fun hc => (h.2.1 hc).2⟩
  | _ => trivial

theorem onFlow_u (hb : c.Basic) {m : OfMsg} (hm : AddU c K m) {sl : Slot} {b : Option Body} (h : UBody c K sl b) :
    UBody c K sl (m.onFlow sl b) := by
  intro x hx
  cases m with
  | flow f =>
    cases hc : f.cmd with
    | add =>
      simp only [OfMsg.onFlow, hc] at hx
      split at hx
      · rename_i hs; cases hx; rw [← hs]; exact hm.1 hc
      · exact h x hx
    | modifyStrict =>
      simp only [OfMsg.onFlow, hc] at hx
      split at hx
      · rename_i hs
        obtain ⟨y, hy, rfl⟩ := Option.map_eq_some_iff.1 hx
        obtain ⟨h1, h2⟩ := hm.2 hc
        have ht : sl.table = c.tf := by rw [← hs]; exact h1
        obtain ⟨e1, e2⟩ := flood_permanent hb (h y hy) ht
        simp only [e1, e2]
        rw [← hs]; exact h2
      · exact h x hx
    | delete => simp only [OfMsg.onFlow, hc] at hx; exact h x (Option.filter_eq_some_iff.1 hx).1
    | deleteStrict => simp only [OfMsg.onFlow, hc] at hx; exact h x (Option.filter_eq_some_iff.1 hx).1
  | _ => exact h x (Option.filter_eq_some_iff.1 hx).1

theorem exec_u (hb : c.Basic) {out : List OfMsg} (hm : ∀ m ∈ out, AddU c K m) {sw : Switch} (h : UFlows c K sw) :
    UFlows c K (sw.execAll out) := by
  induction out generalizing sw with
  | nil => exact h
  | cons m ms ih =>
    refine ih (fun x hx => hm x (List.mem_cons_of_mem _ hx)) (sw := sw.exec m) ?_
    exact fun sl => onFlow_u hb (hm m List.mem_cons_self) (h sl)

theorem URule.mono {K' : Nat → Prop} (hk : ∀ m, K m → K' m) {sl : Slot} {inst : List Inst} {h i : Nat} (hr : URule c K sl inst h i) :
    URule c K' sl inst h i := by
  cases hr with
  | dVlan => exact .dVlan
  | dClass h => exact .dClass h
  | dSrc => exact .dSrc
  | dDst => exact .dDst
  | dFlood => exact .dFlood
  | dFib h => exact .dFib h
  | dVip h => exact .dVip h
  | untagged h1 h2 => exact .untagged h1 h2
  | tagged h1 h2 => exact .tagged h1 h2
  | untagMiss h1 h2 h3 h4 => exact .untagMiss h1 h2 h3 h4
  | lldp h1 h2 => exact .lldp h1 h2
  | outOnly h1 h2 => exact .outOnly h1 h2
  | bcast => exact .bcast
  | ectp => exact .ectp
  | spoof h1 => exact .spoof h1
  | unknown h1 => exact .unknown h1
  | src h1 => exact .src (hk _ h1)
  | ban h1 => exact .ban h1
  | dst h1 h2 h3 => exact .dst h1 h2 (hk _ h3)
  | reserved h1 => exact .reserved h1
  | floodV h1 h2 h3 => exact .floodV h1 h2 h3
  | floodP h1 h2 h3 h4 h5 => exact .floodP h1 h2 h3 h4 h5

/-! ## Rules that are needed -/

/-- The slots that must be filled when the ports `u` are up. -/
inductive Needed (c : Cfg) (u : Nat → Bool) : Slot → Prop
  | cls : c.useClassification = true → Needed c u ⟨c.tc, 0, []⟩
  | src : Needed c u ⟨c.ts, 0, []⟩
  | dst : Needed c u ⟨c.td, 0, []⟩
  | unknown {v} : v ∈ c.vlans → Needed c u ⟨c.ts, lowPriority, [iVlan v.vid]⟩
  | floodV {v r} : v ∈ c.vlans → r ∈ c.flood.rows → c.combinatorial = false → Needed c u ⟨c.tf, r.priority, r.items v.vid none⟩
  | untagged {p : LPort} {vid} : p ∈ c.ports → p.enabled = true → u p.number = true → p.native = some vid →
      Needed c u ⟨0, lowPriority, [iInPort p.number, iUntagged]⟩
  | tagged {p : LPort} {vid} : p ∈ c.ports → p.enabled = true → u p.number = true → vid ∈ p.tagged →
      Needed c u ⟨0, lowPriority, [iInPort p.number, iVlan vid]⟩
  | floodP {v r} {p q : LPort} : v ∈ c.vlans → r ∈ c.flood.rows → c.combinatorial = true → p ∈ c.ports → p.enabled = true →
      u p.number = true → p.In v.vid → q ∈ c.ports → q.In v.vid → q ≠ p →
      Needed c u ⟨c.tf, r.priority + 1, r.items v.vid (some p.number)⟩

theorem covers_field {d s : List MatchItem} (h : coversItems d s = true) {a : MatchItem} (ha : a ∈ d) (hm : a.mask = none) :
    ∃ b ∈ s, b.field = a.field ∧ b.value = a.value := by
  unfold coversItems at h
  rw [List.all_eq_true] at h
  obtain ⟨b, hb, hc⟩ := List.any_eq_true.1 (h a ha)
  refine ⟨b, hb, ?_⟩
  unfold MatchItem.covers at hc
  simp only [hm, Bool.and_eq_true, beq_iff_eq] at hc
  refine ⟨hc.1.symm, ?_⟩
  have h2 := hc.2
  split at h2
  · exact (by simpa using h2 : a.value = b.value).symm
  all_goals simp_all

theorem covers_inPort {d s : List MatchItem} (h : coversItems d s = true) {j : Nat} (ha : iInPort j ∈ d) :
    ∃ b ∈ s, b.field = fInPort ∧ b.value = j := covers_field h ha rfl

theorem row_inPort {r : Flood.Row} {vid : Nat} {b : MatchItem} (hb : b ∈ r.items vid none) : b.field ≠ fInPort := by
  unfold Flood.Row.items at hb
  simp only [List.nil_append, List.mem_append, List.mem_singleton] at hb
  rcases hb with (hb | hb) | rfl
  · split at hb
    · rw [List.mem_singleton.1 hb]; show fEthDst ≠ fInPort; decide
    · cases hb
  · split at hb
    · rw [List.mem_singleton.1 hb]; show fEthType ≠ fInPort; decide
    · cases hb
  · show fVlanVid ≠ fInPort; decide

theorem del_spares (hb : c.Basic) {u : Nat → Bool} (hu : ∀ j, n = some j → u j = false) {f : FlowMod} (hc : f.cmd = .delete)
    (hd : DelU c n f) {sl : Slot} (hn : Needed c u sl) {x : Body} (hx : URule c K sl x.inst x.hard x.idle) : f.kills sl x = false := by
  obtain ⟨hc0, hs0, hd0, hf0, hsd, hsf, hdf, hcd, hcf, -, -, hsA, hdA, hfA, -⟩ := hb.distinct
  have hin : ∀ (y : MatchItem), y.field = fVlanVid → y.field ≠ fInPort := by intro y h; rw [h]; decide
  by_contra hk
  simp only [FlowMod.kills, hc, Bool.not_eq_false, Bool.and_eq_true, FlowMod.tableOk, Bool.or_eq_true, beq_iff_eq] at hk
  obtain ⟨⟨htab, hcov⟩, hout⟩ := hk
  have htab : f.table = sl.table := by
    rcases htab with h | h
    · exfalso
      cases hd with
      | port _ ht _ =>
        rcases ht with ht | ht
        · rw [ht] at h; exact absurd h (by decide)
        · rw [ht] at h; exact hsA h
      | flood _ ht _ => rw [ht] at h; exact hfA h
      | out ht _ => rw [ht] at h; exact hdA h
      | hostSrc ht _ => rw [ht] at h; exact hsA h
      | hostDst ht _ => rw [ht] at h; exact hdA h
    · exact h
  cases hd with
  | @port j hj ht hi =>
    obtain ⟨b, hbm, hbf, hbv⟩ := covers_inPort hcov hi
    have hz := hu j hj
    cases hn with
    | cls _ => cases hbm
    | src => cases hbm
    | dst => cases hbm
    | unknown _ => rw [List.mem_singleton.1 hbm] at hbf; exact absurd hbf (by show fVlanVid ≠ fInPort; decide)
    | floodV _ _ _ => exact row_inPort hbm hbf
    | untagged _ _ hup _ =>
      simp only [List.mem_cons, List.not_mem_nil, or_false] at hbm
      rcases hbm with rfl | rfl
      · rw [← hbv] at hz; exact absurd (hup.symm.trans hz) (by decide)
      · exact absurd hbf (by show fVlanVid ≠ fInPort; decide)
    | tagged _ _ hup _ =>
      simp only [List.mem_cons, List.not_mem_nil, or_false] at hbm
      rcases hbm with rfl | rfl
      · rw [← hbv] at hz; exact absurd (hup.symm.trans hz) (by decide)
      · exact absurd hbf (by show fVlanVid ≠ fInPort; decide)
    | floodP => rcases ht with ht | ht <;> rw [ht] at htab <;> first | exact hf0 htab.symm | exact hsf htab
  | flood hcomb ht hi =>
    rw [ht] at htab
    obtain ⟨b, hbm, hbf, -⟩ := covers_inPort hcov hi
    cases hn with
    | cls _ => cases hbm
    | src => cases hbm
    | dst => cases hbm
    | unknown _ => exact hsf htab.symm
    | floodV _ _ _ => exact row_inPort hbm hbf
    | untagged => exact hf0 htab
    | tagged => exact hf0 htab
    | floodP _ _ hc' => rw [hcomb] at hc'; cases hc'
  | @out j ht ho =>
    rw [ht] at htab
    cases hn with
    | cls _ => exact hcd htab.symm
    | src => exact hsd htab.symm
    | dst =>
      have hi : x.inst = [.goto c.tf] := by
        generalize x.inst = y, x.hard = hh, x.idle = ii at hx
        generalize hsl : (⟨c.td, 0, []⟩ : Slot) = sl at hx
        cases hx <;> first
          | rfl
          | exact absurd (congrArg Slot.table hsl).symm (hb.fib (by assumption)).dst
          | exact absurd (congrArg Slot.table hsl).symm (hb.vip (by assumption)).dst
          | (simp only [Slot.mk.injEq] at hsl; first | exact absurd hsl.1 hd0 | exact absurd hsl.1.symm hcd | exact absurd hsl.1.symm hsd | exact absurd hsl.1 hdf | simp at hsl)
      simp [FlowMod.outPortOk, ho, Body.outputsTo, hi] at hout
    | unknown _ => exact hsd htab.symm
    | floodV => exact hdf htab
    | untagged => exact hd0 htab
    | tagged => exact hd0 htab
    | floodP => exact hdf htab
  | @hostSrc m ht hi =>
    rw [ht] at htab
    obtain ⟨b, hbm, hbf, -⟩ := covers_field hcov hi rfl
    have hbf : b.field = fEthSrc := hbf
    cases hn with
    | cls _ => cases hbm
    | src => cases hbm
    | dst => cases hbm
    | unknown _ => rw [List.mem_singleton.1 hbm] at hbf; exact absurd hbf (by show fVlanVid ≠ fEthSrc; decide)
    | floodV => exact hsf htab
    | untagged => exact hs0 htab
    | tagged => exact hs0 htab
    | floodP => exact hsf htab
  | @hostDst m ht hi =>
    rw [ht] at htab
    obtain ⟨b, hbm, hbf, -⟩ := covers_field hcov hi rfl
    cases hn with
    | cls _ => cases hbm
    | src => cases hbm
    | dst => cases hbm
    | unknown _ => exact hsd htab.symm
    | floodV => exact hdf htab
    | untagged => exact hd0 htab
    | tagged => exact hd0 htab
    | floodP => exact hdf htab

/-- There, and one of the rules. -/
def Full (c : Cfg) (K : Nat → Prop) (sl : Slot) (b : Option Body) : Prop := b ≠ none ∧ UBody c K sl b

theorem onFlow_full (hb : c.Basic) {u : Nat → Bool} (hu : ∀ j, n = some j → u j = false) {m : OfMsg} (hm : MsgU c K n md m)
    {sl : Slot} (hn : Needed c u sl) {b : Option Body} (h : Full c K sl b) : Full c K sl (m.onFlow sl b) := by
  refine ⟨?_, onFlow_u hb hm.add h.2⟩
  cases hdel : FlowReorder.isDeletion m with
  | false => exact FlowReorder.keeps_nondeletion hdel h.1
  | true =>
    obtain ⟨x, hx⟩ := Option.ne_none_iff_exists'.1 h.1
    have hr := h.2 x hx
    rw [hx]
    cases m with
    | flow f =>
      cases hc : f.cmd with
      | add => simp [FlowReorder.isDeletion, hc] at hdel
      | modifyStrict => simp [FlowReorder.isDeletion, hc] at hdel
      | delete =>
        have := del_spares hb hu hc (hm.2.2.1 hc) hn hr
        simp [OfMsg.onFlow, hc, Option.filter, this]
      | deleteStrict => exact absurd hc hm.2.2.2
    | group g => exact hm.elim
    | meter g => exact hm.elim
    | _ => simp [FlowReorder.isDeletion] at hdel

theorem exec_full (hb : c.Basic) {u : Nat → Bool} (hu : ∀ j, n = some j → u j = false) {out : List OfMsg}
    (hm : ∀ m ∈ out, MsgU c K n md m) {sl : Slot} (hn : Needed c u sl) {sw : Switch} (h : Full c K sl (sw.flows sl)) :
    Full c K sl ((sw.execAll out).flows sl) := by
  induction out generalizing sw with
  | nil => exact h
  | cons m ms ih =>
    refine ih (fun x hx => hm x (List.mem_cons_of_mem _ hx)) (sw := sw.exec m) ?_
    exact onFlow_full hb hu (hm m List.mem_cons_self) hn h

theorem out_u {sh : List OfMsg → List OfMsg} (hsh : ∀ l, (sh l).Perm l) {bar : Bool} {ms out : List OfMsg}
    (hout : FlowReorder.reorder sh bar ms = some out) {P : OfMsg → Prop} (hbar : P .barrier) (hm : ∀ m ∈ ms, P m) : ∀ m ∈ out, P m := by
  intro m h
  rcases FlowReorder.reorder_no_invention sh hsh bar ms out hout m h with h | ⟨-, rfl⟩
  · exact hm m h
  · exact hbar

/-! ## Rules that are added -/

def Adds (ms : List OfMsg) (sl : Slot) : Prop := ∃ f, .flow f ∈ ms ∧ f.cmd = .add ∧ f.slot = sl

theorem Adds.mono {a b : List OfMsg} {sl : Slot} (h : Adds a sl) (hs : ∀ m ∈ a, m ∈ b) : Adds b sl := by
  obtain ⟨f, h1, h2⟩ := h
  exact ⟨f, hs _ h1, h2⟩

theorem adds_present {sh : List OfMsg → List OfMsg} (hsh : ∀ l, (sh l).Perm l) {bar : Bool} {ms out : List OfMsg}
    (hout : FlowReorder.reorder sh bar ms = some out) (hm : ∀ f, .flow f ∈ ms → f.cmd ≠ .modifyStrict) {sl : Slot} (h : Adds ms sl)
    (sw : Switch) : (sw.execAll out).flows sl ≠ none := by
  obtain ⟨f, h1, h2, rfl⟩ := h
  exact FlowReorder.added_present hsh hout h1 h2 (fun g hg _ => hm g hg) sw

theorem vlanRule_adds (hb : c.Basic) (p : LPort) (push : Bool) (vid : Nat) :
    Adds (c.vlanRule p push vid) ⟨0, lowPriority, [iInPort p.number, if push then iUntagged else iVlan vid]⟩ := by
  unfold Cfg.vlanRule Pipeline.portVlanFlow
  have hf : Pipeline.forwardingTable c.conf (c.portVlan p push vid) = Pipeline.classTable c.conf := rfl
  rw [hf, hb.conf, goto_class]
  refine ⟨_, List.mem_singleton.2 rfl, rfl, ?_⟩
  rw [vlan_zero]
  cases push <;> simp [FlowMod.slot, Cfg.portVlan, iInPort, iUntagged, iVlan]

theorem portAdd_untagged (hb : c.Basic) {p : LPort} {vid : Nat} (h : p.native = some vid) :
    Adds (c.portAdd p) ⟨0, lowPriority, [iInPort p.number, iUntagged]⟩ := by
  have := vlanRule_adds hb p true vid
  refine this.mono ?_
  intro m hm
  have hv : p.vids ≠ [] := by simp [LPort.vids, h]
  simp only [Cfg.portAdd, Cfg.switchAdd, if_neg hv, Cfg.untaggedRule, h, List.mem_append]
  tauto

theorem portAdd_tagged (hb : c.Basic) {p : LPort} {vid : Nat} (h : vid ∈ p.tagged) :
    Adds (c.portAdd p) ⟨0, lowPriority, [iInPort p.number, iVlan vid]⟩ := by
  have := vlanRule_adds hb p false vid
  refine this.mono ?_
  intro m hm
  have hv : p.vids ≠ [] := by
    intro h0
    have : vid ∈ p.vids := by simp [LPort.vids, h]
    rw [h0] at this; cases this
  simp only [Cfg.portAdd, Cfg.switchAdd, if_neg hv, List.mem_append]
  exact Or.inl (Or.inl (Or.inr (Or.inl (Or.inl (List.mem_flatMap.2 ⟨vid, h, hm⟩)))))

theorem addVlan_unknown (hb : c.Basic) (d : Nat → Dyn) (cold : Bool) (v : LVlan) :
    Adds (c.addVlan d cold v) ⟨c.ts, lowPriority, [iVlan v.vid]⟩ := by
  have h2 := hb.ids.2.1
  have : Adds (Pipeline.unknownFlow c.conf v.vid).toList ⟨c.ts, lowPriority, [iVlan v.vid]⟩ := by
    unfold Pipeline.unknownFlow
    rw [hb.conf, goto_out]
    refine ⟨_, List.mem_singleton.2 rfl, rfl, ?_⟩
    rw [h2]; rfl
  refine this.mono ?_
  intro m hm
  simp only [Cfg.addVlan, List.mem_append]
  tauto

theorem row_used (hb : c.Basic) (d : Nat → Dyn) {v : LVlan} (hv : v ∈ c.vlans) {r : Flood.Row} (hr : r ∈ c.flood.rows) :
    r ∈ c.flood.rows.filter (Flood.rowUsed (c.fvlan d v)) := by
  refine List.mem_filter.2 ⟨hr, ?_⟩
  have : (c.fvlan d v).unicastFlood = true := hb.vlanUnicast v hv
  simp [Flood.rowUsed, this]

theorem addVlan_floodV (hb : c.Basic) (d : Nat → Dyn) (cold : Bool) {v : LVlan} (hv : v ∈ c.vlans) {r : Flood.Row}
    (hr : r ∈ c.flood.rows) (hcomb : c.combinatorial = false) :
    Adds (c.addVlan d cold v) ⟨c.tf, r.priority, r.items v.vid none⟩ := by
  have hg : c.flood.useGroups = false := hb.noGroups
  have hc : c.flood.combinatorial = false := hcomb
  have : Adds (Flood.maskRules c.flood .add cold (c.fvlan d v) r) ⟨c.tf, r.priority, r.items v.vid none⟩ := by
    unfold Flood.maskRules
    rw [if_neg (by simp [hc]), if_neg (by simp [hg])]
    exact ⟨_, List.mem_append_left _ (List.mem_singleton.2 rfl), rfl, rfl⟩
  refine this.mono ?_
  intro m hm
  simp only [Cfg.addVlan, Flood.floodRules, Flood.multioutRules, List.mem_append]
  exact Or.inr (Or.inl (List.mem_flatMap.2 ⟨r, row_used hb d hv hr, by simpa using hm⟩))

end Faucet.L2
