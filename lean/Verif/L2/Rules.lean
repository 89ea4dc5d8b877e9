import Verif.L2.Tables
import Verif.Flood.Table
import Verif.Learn.Sys

/-! # One standalone switch: every rule FAUCET sends is of a known form -/

namespace Faucet.L2
open Faucet.OF
open Faucet.Learn (iInPort iEthDst iEthSrc iVlan)

/-- An output that keeps the tag of VLAN `vid`: to a tagged member, a mirror of one, or back to one. -/
def OkT (c : Cfg) (vid : Nat) (i : Option Nat) (n : Nat) : Prop :=
  ∃ q ∈ c.ports, vid ∈ q.tagged ∧ (n = q.number ∨ n ∈ q.mirror ∨ (n = portInPort ∧ i = some q.number))

/-- An output without the tag. -/
def OkU (c : Cfg) (vid : Nat) (i : Option Nat) (n : Nat) : Prop :=
  ∃ q ∈ c.ports, q.native = some vid ∧ (n = q.number ∨ n ∈ q.mirror ∨ (n = portInPort ∧ i = some q.number))

/-- Emissions that are those of a flood on VLAN `vid`. -/
def FloodLike (c : Cfg) (vid : Nat) (i : Option Nat) (emits : Pkt → List Emit) : Prop :=
  ∀ k, ∃ (pre : List Action) (T U : List Nat), (pre = [] ∨ pre = [Action.setField fVlanPcp pcpExt]) ∧
    emits k = T.flatMap (emitPort (Flood.prePkt pre k)) ++ U.flatMap (emitPort (Action.popVlan.apply (Flood.prePkt pre k))) ∧
    (∀ n ∈ T, OkT c vid i n) ∧ (∀ n ∈ U, OkU c vid i n)

/-- The forms of rules. -/
inductive FlowOk (c : Cfg) : Slot → List Inst → Prop
  | drop {s} : FlowOk c s []
  | on {s n} : s.table ≠ 0 → n ≠ 0 → FlowOk c s [.goto n]
  | ctrlOn {s n} : s.table ≠ 0 → n ≠ 0 → FlowOk c s [.apply [.output portController], .goto n]
  | lacp {s p} : s.table = 0 → p ∈ c.ports → p.lacp ≠ 0 → s.items = lacpItems p.number →
      FlowOk c s [.apply [.output portController]]
  | lldp {s p} : s.table = 0 → p ∈ c.ports → p.receiveLldp = true → s.items = lldpItems p.number →
      FlowOk c s [.apply [.output portController]]
  | untagged {s p vid n} : s.table = 0 → p ∈ c.ports → p.native = some vid → s.items = [iInPort p.number, iUntagged] → n ≠ 0 →
      FlowOk c s (trimInst [.apply (p.mirror.map .output ++ [.pushVlan 0x8100, .setField fVlanVid (vidPresent vid)] ++
        (c.extFlag p).toList.map (.setField fVlanPcp)), .goto n])
  | tagged {s p vid n} : s.table = 0 → p ∈ c.ports → vid ∈ p.tagged → s.items = [iInPort p.number, iVlan vid] → n ≠ 0 →
      FlowOk c s (trimInst [.apply (p.mirror.map .output ++ (c.extFlag p).toList.map (.setField fVlanPcp)), .goto n])
  | host {s q vid hp ext} : s.table ≠ 0 → q ∈ c.ports → q.In vid → iVlan vid ∈ s.items →
      (hp = true → iInPort q.number ∈ s.items) → FlowOk c s (Learn.pipelineOutput c.learn q.number vid hp ext)
  | egressT {s q vid} : s.table ≠ 0 → q ∈ c.ports → vid ∈ q.tagged → iVlan vid ∈ s.items →
      FlowOk c s (trimInst [.apply (q.mirror.map .output ++ [.output q.number])])
  | egressU {s q vid} : s.table ≠ 0 → q ∈ c.ports → q.native = some vid → iVlan vid ∈ s.items →
      FlowOk c s (trimInst [.apply (q.mirror.map .output ++ [.popVlan] ++ [.output q.number])])
  | flood {s v i acts} : s.table ≠ 0 → v ∈ c.vlans → iVlan v.vid ∈ s.items → (∀ n, i = some n → iInPort n ∈ s.items) →
      (∀ g, FloodLike c v.vid i (fun k => (runActs g acts k).1)) → FlowOk c s (trimInst [.apply acts])
  | group {s v g} : c.groupTable = true → s.table ≠ 0 → v ∈ c.vlans → iVlan v.vid ∈ s.items → g = v.vid ∨ g = v.vid + 4096 →
      FlowOk c s [.apply [.group g]]

def GroupOk (c : Cfg) (g : Nat) (buckets : List (List Action)) : Prop :=
  ∃ v ∈ c.vlans, (g = v.vid ∨ g = v.vid + 4096) ∧
    FloodLike c v.vid none (fun k => buckets.flatMap (fun b => runBucket b k))

def MsgOk (c : Cfg) : OfMsg → Prop
  | .flow f => f.cmd = .add ∨ f.cmd = .modifyStrict → FlowOk c f.slot f.inst
  | .group g => g.cmd = .add → ∀ i, g.gid = some i → GroupOk c i g.buckets
  | _ => True

/-! ## Flooding -/

theorem mem_fports {c : Cfg} {d : Nat → Dyn} {v : LVlan} {q : Flood.FPort} (h : q ∈ (c.fvlan d v).tagged) :
    ∃ p ∈ c.ports, v.vid ∈ p.tagged ∧ q = fport d p := by
  obtain ⟨p, hp, rfl⟩ := List.mem_map.1 h
  obtain ⟨h1, h2⟩ := List.mem_filter.1 hp
  exact ⟨p, h1, by simpa using h2, rfl⟩

theorem mem_funtagged {c : Cfg} {d : Nat → Dyn} {v : LVlan} {q : Flood.FPort} (h : q ∈ (c.fvlan d v).untagged) :
    ∃ p ∈ c.ports, p.native = some v.vid ∧ q = fport d p := by
  obtain ⟨p, hp, rfl⟩ := List.mem_map.1 h
  obtain ⟨h1, h2⟩ := List.mem_filter.1 hp
  exact ⟨p, h1, by simpa using h2, rfl⟩

theorem mem_portOutputs {i : Option Flood.FPort} {ex : List Flood.FPort} {q : Flood.FPort} {n : Nat}
    (h : Action.output n ∈ Flood.portOutputs i ex q) :
    n = q.number ∨ n ∈ q.mirror ∨ (n = portInPort ∧ i.map (·.number) = some q.number) := by
  unfold Flood.portOutputs at h
  split at h
  · rename_i hi
    split at h
    · right; right
      simp only [List.mem_singleton, Action.output.injEq] at h
      refine ⟨h, ?_⟩
      unfold Flood.isIn at hi
      cases i with
      | none => simp at hi
      | some p => simp at hi; simp [hi]
    · cases h
  · split at h
    · cases h
    · rcases List.mem_cons.1 h with h | h
      · left; exact Action.output.inj h
      · right; left
        split at h
        · obtain ⟨m, hm, e⟩ := List.mem_map.1 h
          rw [← Action.output.inj e]; exact hm
        · cases h

theorem shape_like {c : Cfg} {d : Nat → Dyn} {v : LVlan} {eu ae er : Bool} {i : Option Flood.FPort} {T U : List Nat}
    (hT : ∀ n, n ∈ T ↔ ∃ q ∈ (c.fvlan d v).taggedFlood eu, .output n ∈ Flood.portOutputs i ((c.fvlan d v).excluded i ae er) q)
    (hU : ∀ n, n ∈ U ↔ ∃ q ∈ (c.fvlan d v).untaggedFlood eu, .output n ∈ Flood.portOutputs i ((c.fvlan d v).excluded i ae er) q) :
    (∀ n ∈ T, OkT c v.vid (i.map (·.number)) n) ∧ (∀ n ∈ U, OkU c v.vid (i.map (·.number)) n) := by
  constructor
  · intro n hn
    obtain ⟨q, hq, ho⟩ := (hT n).1 hn
    obtain ⟨p, hp, ht, rfl⟩ := mem_fports (Flood.taggedFlood_sub.1 hq).1
    exact ⟨p, hp, ht, mem_portOutputs ho⟩
  · intro n hn
    obtain ⟨q, hq, ho⟩ := (hU n).1 hn
    have hq' := (Flood.untaggedFlood_sub.1 hq).1
    have hq2 : q ∈ (c.fvlan d v).untagged := by
      rcases List.mem_append.1 hq' with h | h
      · exact h
      · cases h
    obtain ⟨p, hp, ht, rfl⟩ := mem_funtagged hq2
    exact ⟨p, hp, ht, mem_portOutputs ho⟩

theorem rule_like (c : Cfg) (d : Nat → Dyn) (v : LVlan) (eu ae er : Bool) (i : Option Flood.FPort)
    (g : Nat → Option (List (List Action))) :
    FloodLike c v.vid (i.map (·.number)) (fun k => (runActs g ((c.fvlan d v).ruleActs eu i ae er) k).1) := by
  intro k
  obtain ⟨pre, T, U, hs, hT, hU⟩ := Flood.ruleActs_shape (c.fvlan d v) eu i ae er
  obtain ⟨h1, h2⟩ := shape_like hT hU
  exact ⟨pre, T, U, hs.pre, Flood.emits_shape hs g k, h1, h2⟩

theorem clean_like (c : Cfg) (d : Nat → Dyn) (v : LVlan) (eu ae er : Bool) (i : Option Flood.FPort)
    (g : Nat → Option (List (List Action))) :
    FloodLike c v.vid (i.map (·.number))
      (fun k => (runActs g (Actions.outputNonOutput ((c.fvlan d v).ruleActs eu i ae er)).1 k).1) := by
  intro k
  obtain ⟨pre, T, U, hs, hT, hU⟩ := Flood.ruleActs_shape (c.fvlan d v) eu i ae er
  obtain ⟨acts', hs', he⟩ := Flood.cleanup_is_shape hs g k
  obtain ⟨h1, h2⟩ := shape_like hT hU
  refine ⟨pre, T, _, hs.pre, he.trans (Flood.emits_shape hs' g k), h1, ?_⟩
  intro n hn
  exact h2 n (List.mem_filter.1 hn).1

theorem port_like (c : Cfg) (d : Nat → Dyn) (v : LVlan) (eu ae er : Bool) (p : Flood.FPort)
    (g : Nat → Option (List (List Action))) :
    FloodLike c v.vid (some p.number) (fun k => (runActs g ((c.fvlan d v).portActs eu p ae er).1 k).1) := by
  have hnil : FloodLike c v.vid (some p.number) (fun k => (runActs g [] k).1) := by
    intro k
    exact ⟨[], [], [], Or.inl rfl, rfl, by simp, by simp⟩
  unfold Flood.FVlan.portActs
  split
  · simp only
    split
    · exact hnil
    · exact clean_like c d v eu ae (er && p.restricted) (some p) g
  · exact hnil

theorem noGroup_rule (c : Cfg) (d : Nat → Dyn) (v : LVlan) (eu ae er : Bool) (i : Option Flood.FPort) (n : Nat) :
    Action.group n ∉ (c.fvlan d v).ruleActs eu i ae er ∧
    Action.group n ∉ (Actions.outputNonOutput ((c.fvlan d v).ruleActs eu i ae er)).1 := by
  obtain ⟨pre, T, U, hs, -, -⟩ := Flood.ruleActs_shape (c.fvlan d v) eu i ae er
  constructor
  · rw [hs.eq]
    rcases hs.pre with rfl | rfl <;> by_cases hU : U = [] <;> simp [hU]
  · rw [(Flood.cleanup_shape hs).1]
    rcases hs.pre with rfl | rfl <;> by_cases hU : U = [] <;> simp [hU]

theorem groupFor_ok (c : Cfg) (d : Nat → Dyn) {v : LVlan} (hv : v ∈ c.vlans) (uni : Bool) :
    GroupOk c (Flood.groupFor (c.fvlan d v) uni).1 (Flood.groupFor (c.fvlan d v) uni).2 := by
  unfold Flood.groupFor
  simp only
  split
  · refine ⟨v, hv, Or.inr rfl, ?_⟩
    unfold FloodLike
    intro k
    show ∃ pre T U, _ ∧ (Actions.floodBuckets _).flatMap (fun b => runBucket b k) = _ ∧ _
    unfold Flood.FVlan.vlanActs
    rw [Actions.buckets_same_emits (fun _ => none) _ (fun i => (noGroup_rule c d v true false true none i).2) k]
    exact clean_like c d v true false true none (fun _ => none) k
  · refine ⟨v, hv, Or.inl rfl, ?_⟩
    unfold FloodLike
    intro k
    show ∃ pre T U, _ ∧ (Actions.floodBuckets _).flatMap (fun b => runBucket b k) = _ ∧ _
    unfold Flood.FVlan.vlanActs
    rw [Actions.buckets_same_emits (fun _ => none) _ (fun i => (noGroup_rule c d v false false true none i).1) k]
    exact rule_like c d v false false true none (fun _ => none) k

theorem row_vlan (r : Flood.Row) (vid : Nat) (i : Option Nat) : iVlan vid ∈ r.items vid i := by
  simp [Flood.Row.items, iVlan]

theorem row_in (r : Flood.Row) (vid n : Nat) : iInPort n ∈ r.items vid (some n) := by
  simp [Flood.Row.items, iInPort]

theorem flood_ne (c : Cfg) : c.flood.table.id ≠ 0 :=
  (others_pos c.egressPipeline c.hasHairpin c.useClassification c.ipv4).2.2.1

theorem msgOk_del (c : Cfg) (t : Table) (items : List MatchItem) (prio : Nat) (o : Option Nat) (s : Bool) :
    MsgOk c (t.flowdel items prio o s) := by
  intro h
  cases s <;> simp at h

theorem msgOk_drop (c : Cfg) (t : Table) (items : List MatchItem) (prio hard : Nat) :
    MsgOk c (t.flowdrop items prio hard) := fun _ => by
  show FlowOk c _ (trimInst [])
  exact .drop

theorem portRule_ok (c : Cfg) (d : Nat → Dyn) {v : LVlan} (hv : v ∈ c.vlans) (cmd : FlowCmd) (r : Flood.Row) (p : Flood.FPort)
    (eu ae er : Bool) : MsgOk c (Flood.portRule c.flood cmd (c.fvlan d v) r p ((c.fvlan d v).portActs eu p ae er).1) := by
  intro _
  refine .flood (v := v) (i := some p.number) (flood_ne c) hv (row_vlan r v.vid (some p.number)) ?_ (port_like c d v eu ae er p)
  intro n hn
  rw [← Option.some.inj hn]
  exact row_in r v.vid p.number

theorem floodRules_ok (c : Cfg) (d : Nat → Dyn) {v : LVlan} (hv : v ∈ c.vlans) (cold modify : Bool) :
    ∀ m ∈ Flood.floodRules c.flood (c.fvlan d v) cold modify, MsgOk c m := by
  intro m hm
  unfold Flood.floodRules at hm
  simp only at hm
  generalize (if modify = true then FlowCmd.modifyStrict else FlowCmd.add) = cmd at hm
  rcases List.mem_append.1 hm with hm | hm
  · unfold Flood.multioutRules at hm
    obtain ⟨r, -, hm⟩ := List.mem_flatMap.1 hm
    unfold Flood.maskRules at hm
    split at hm
    · obtain ⟨p, -, hm⟩ := List.mem_flatMap.1 hm
      unfold Flood.combinatorialRule at hm
      simp only at hm
      split at hm
      · cases hm
      · simp only [List.mem_singleton] at hm
        subst hm
        exact portRule_ok c d hv cmd r p _ _ _
    · rcases List.mem_append.1 hm with hm | hm
      · split at hm
        · cases hm
        · simp only [List.mem_singleton] at hm
          subst hm
          intro _
          refine .flood (v := v) (i := none) (flood_ne c) hv (row_vlan r v.vid none) (fun n hn => by cases hn) ?_
          intro g
          exact rule_like c d v r.unicast false true none g
      · obtain ⟨p, -, hm⟩ := List.mem_flatMap.1 hm
        unfold Flood.besideVlan at hm
        simp only at hm
        split at hm
        · cases hm
        · split at hm
          · split at hm
            · cases hm
            · simp only [List.mem_singleton] at hm
              subst hm
              exact msgOk_del c _ _ _ _ _
          · simp only [List.mem_singleton] at hm
            subst hm
            exact portRule_ok c d hv cmd r p _ _ _
  · split at hm
    · rename_i hgt
      unfold Flood.groupRules Flood.groupAdd at hm
      simp only [List.mem_append, List.mem_cons, List.not_mem_nil, or_false] at hm
      rcases hm with ((rfl | rfl) | (rfl | rfl)) | hm
      · intro h; cases h
      · intro _ i hi
        cases hi
        exact groupFor_ok c d hv false
      · intro h; cases h
      · intro _ i hi
        cases hi
        exact groupFor_ok c d hv true
      · obtain ⟨r, -, rfl⟩ := List.mem_map.1 hm
        intro _
        have hg : (Flood.groupFor (c.fvlan d v) r.unicast).1 = v.vid ∨
            (Flood.groupFor (c.fvlan d v) r.unicast).1 = v.vid + 4096 := by
          unfold Flood.groupFor
          simp only
          split
          · right; rfl
          · left; rfl
        refine .group hgt (flood_ne c) hv (row_vlan r v.vid none) hg
    · cases hm

end Faucet.L2
