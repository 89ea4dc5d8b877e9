import Verif.L2.Events

/-! # One standalone switch: VLAN isolation (C62) -/

namespace Faucet.L2
open Faucet.OF
open Faucet.Learn (iInPort iEthDst iEthSrc iVlan host CInv)

/-- A packet inside the pipeline, after the first table. -/
structure Stage (p : LPort) (k0 : Pkt) (vid : Nat) (inner : List (Nat × Nat)) (k : Pkt) : Prop where
  hdr : ∀ f, f ≠ fMetadata → k.hdr f = k0.hdr f
  carried : Carried p k0.tags vid inner
  tags : ∃ pcp, k.tags = (vid, pcp) :: inner
  small : vid < 4096

def Good (c : Cfg) (p : LPort) (k0 : Pkt) (e : Emit) : Prop := SameContent k0 e ∧ Allowed c p k0 e

theorem hits_mem {items : List MatchItem} {i : MatchItem} {k : Pkt} (h : hitsAll items k = true) (hi : i ∈ items) :
    i.hits k = true := List.all_eq_true.1 h i hi

theorem hits_inPort {n : Nat} {k : Pkt} : (iInPort n).hits k = true ↔ k.hdr fInPort = some n :=
  hits_exact (by decide) (by decide)

theorem hits_vlan {vid : Nat} {k : Pkt} : (iVlan vid).hits k = true ↔ ∃ t r, k.tags = t :: r ∧ vidPresent t.1 = vidPresent vid := by
  unfold MatchItem.hits iVlan Pkt.field
  cases k.tags with
  | nil =>
    simp only [if_true, maskEq]
    constructor
    · intro h
      have h : 0 = vidPresent vid := by simpa using h
      have := Nat.right_le_or (n := vid) (m := vidPresentBit)
      unfold vidPresent at h
      rw [← h] at this
      exact absurd this (by decide)
    · rintro ⟨t, r, h, -⟩; cases h
  | cons t r => simp [maskEq]

theorem hits_untagged {k : Pkt} : iUntagged.hits k = true ↔ k.tags = [] := by
  unfold MatchItem.hits iUntagged Pkt.field
  cases k.tags with
  | nil => simp [maskEq]
  | cons t r =>
    simp only [if_true, maskEq, beq_iff_eq, List.cons_ne_nil, iff_false]
    intro h
    have := Nat.right_le_or (n := t.1) (m := vidPresentBit)
    unfold vidPresent at h
    rw [h] at this
    exact absurd this (by decide)

theorem emit_real {k : Pkt} {n : Nat} {e : Emit} (hn : RealPort n) (h : e ∈ emitPort k n) :
    e.port = n ∧ e.tags = k.tags ∧ e.hdr = k.hdr := by
  unfold emitPort at h
  have : n ≠ portInPort := by unfold RealPort at hn; unfold portInPort; omega
  rw [if_neg this] at h
  split at h
  · cases h
  · rw [List.mem_singleton.1 h]; exact ⟨rfl, rfl, rfl⟩

theorem emit_ctrl {k : Pkt} {e : Emit} (h : e ∈ emitPort k portController) :
    e.port = portController ∧ e.tags = k.tags ∧ e.hdr = k.hdr := by
  unfold emitPort at h
  rw [if_neg (by decide)] at h
  split at h
  · cases h
  · rw [List.mem_singleton.1 h]; exact ⟨rfl, rfl, rfl⟩

theorem emit_in {k : Pkt} {e : Emit} (h : e ∈ emitPort k portInPort) :
    k.hdr fInPort = some e.port ∧ e.tags = k.tags ∧ e.hdr = k.hdr := by
  unfold emitPort at h
  rw [if_pos rfl] at h
  split at h
  · rename_i i hi
    rw [List.mem_singleton.1 h]; exact ⟨hi, rfl, rfl⟩
  · cases h

variable {c : Cfg} {p : LPort} {k0 : Pkt} {vid : Nat} {inner : List (Nat × Nat)}

theorem in_small (hw : c.WF) {q : LPort} (hq : q ∈ c.ports) {vid : Nat} (h : q.In vid) : vid < 4096 := by
  obtain ⟨v, hv, rfl⟩ := hw.known q hq vid h
  exact hw.vid v hv

/-- A mirror of a member. -/
theorem good_mirror (hw : c.WF) {k : Pkt} (hc : Carried p k0.tags vid inner) (hk : ∀ f, f ≠ fMetadata → k.hdr f = k0.hdr f)
    {q : LPort} (hq : q ∈ c.ports) (hin : q.In vid) {n : Nat} (hn : n ∈ q.mirror) {e : Emit} (he : e ∈ emitPort k n) :
    Good c p k0 e := by
  obtain ⟨h1, -, h3⟩ := emit_real (hw.mirrors q hq _ hin n hn).1 he
  refine ⟨fun f hf => by rw [h3]; exact hk f hf, .mirror hc hq hin (by rw [h1]; exact hn)⟩

/-- A member. -/
theorem good_member (hw : c.WF) {k : Pkt} (hc : Carried p k0.tags vid inner) (hk : ∀ f, f ≠ fMetadata → k.hdr f = k0.hdr f)
    {q : LPort} (hq : q ∈ c.ports) (ht : RightTags q vid inner k.tags) {n : Nat}
    (hn : n = q.number ∨ (n = portInPort ∧ k0.hdr fInPort = some q.number)) {e : Emit} (he : e ∈ emitPort k n) : Good c p k0 e := by
  rcases hn with rfl | ⟨rfl, hi⟩
  · obtain ⟨h1, h2, h3⟩ := emit_real (hw.real q hq) he
    exact ⟨fun f hf => by rw [h3]; exact hk f hf, .member hc hq h1 (by rw [h2]; exact ht)⟩
  · obtain ⟨h1, h2, h3⟩ := emit_in he
    rw [hk _ (by decide), hi] at h1
    exact ⟨fun f hf => by rw [h3]; exact hk f hf, .member hc hq (Option.some.inj h1).symm (by rw [h2]; exact ht)⟩

theorem good_T (hw : c.WF) {k : Pkt} (hc : Carried p k0.tags vid inner) (hk : ∀ f, f ≠ fMetadata → k.hdr f = k0.hdr f)
    (ht : ∃ pcp, k.tags = (vid, pcp) :: inner) {i : Option Nat} (hi : ∀ n, i = some n → k0.hdr fInPort = some n)
    {n : Nat} (hn : OkT c vid i n) {e : Emit} (he : e ∈ emitPort k n) : Good c p k0 e := by
  obtain ⟨q, hq, hin, hn⟩ := hn
  rcases hn with hn | hn | ⟨hn, hi'⟩
  · exact good_member hw hc hk hq (Or.inr ⟨hin, ht⟩) (Or.inl hn) he
  · exact good_mirror hw hc hk hq (Or.inr hin) hn he
  · exact good_member hw hc hk hq (Or.inr ⟨hin, ht⟩) (Or.inr ⟨hn, hi _ hi'⟩) he

theorem good_U (hw : c.WF) {k : Pkt} (hc : Carried p k0.tags vid inner) (hk : ∀ f, f ≠ fMetadata → k.hdr f = k0.hdr f)
    (ht : k.tags = inner) {i : Option Nat} (hi : ∀ n, i = some n → k0.hdr fInPort = some n)
    {n : Nat} (hn : OkU c vid i n) {e : Emit} (he : e ∈ emitPort k n) : Good c p k0 e := by
  obtain ⟨q, hq, hin, hn⟩ := hn
  rcases hn with hn | hn | ⟨hn, hi'⟩
  · exact good_member hw hc hk hq (Or.inl ⟨hin, ht⟩) (Or.inl hn) he
  · exact good_mirror hw hc hk hq (Or.inl hin) hn he
  · exact good_member hw hc hk hq (Or.inl ⟨hin, ht⟩) (Or.inr ⟨hn, hi _ hi'⟩) he

theorem pre_stage {k : Pkt} (hs : Stage p k0 vid inner k) {pre : List Action}
    (hp : pre = [] ∨ pre = [Action.setField fVlanPcp pcpExt]) : Stage p k0 vid inner (Flood.prePkt pre k) := by
  rcases hp with rfl | rfl
  · exact hs
  · obtain ⟨pcp, ht⟩ := hs.tags
    refine ⟨hs.hdr, hs.carried, ⟨pcpExt, ?_⟩, hs.small⟩
    simp [Flood.prePkt, Actions.after, Action.apply, fVlanPcp, fVlanVid, ht]

theorem good_floodLike (hw : c.WF) {k : Pkt} (hs : Stage p k0 vid inner k) {i : Option Nat}
    (hi : ∀ n, i = some n → k0.hdr fInPort = some n) {emits : Pkt → List Emit} (h : FloodLike c vid i emits) :
    ∀ e ∈ emits k, Good c p k0 e := by
  intro e he
  obtain ⟨pre, T, U, hpre, heq, hT, hU⟩ := h k
  have hs' := pre_stage hs hpre
  rw [heq] at he
  rcases List.mem_append.1 he with he | he
  · obtain ⟨n, hn, he⟩ := List.mem_flatMap.1 he
    exact good_T hw hs.carried hs'.hdr hs'.tags hi (hT n hn) he
  · obtain ⟨n, hn, he⟩ := List.mem_flatMap.1 he
    obtain ⟨pcp, ht⟩ := hs'.tags
    refine good_U hw (k := Action.popVlan.apply (Flood.prePkt pre k)) hs.carried hs'.hdr ?_ hi (hU n hn) he
    simp [Action.apply, ht]

theorem runActs_map_output (g : Nat → Option (List (List Action))) (ns : List Nat) (as : List Action) (k : Pkt) :
    runActs g (ns.map .output ++ as) k = (ns.flatMap (emitPort k) ++ (runActs g as k).1, (runActs g as k).2) := by
  induction ns with
  | nil => rfl
  | cons n ns ih => simp [runActs, ih]

theorem trimOne_apply (b : Bool) (acts : List Action) : trimOne b (.apply acts) = none ∨ ∃ as, trimOne b (.apply acts) = some (.apply as) := by
  unfold trimOne
  simp only
  generalize hx : (if (!b && !acts.any Action.isCt) = true then trimActions acts else acts) = as
  by_cases h : as = []
  · left; rw [if_pos h]
  · right; exact ⟨as, if_neg h⟩

theorem goto_apply (acts : List Action) : instGoto (trimInst [.apply acts]) = none := by
  unfold trimInst
  rcases trimOne_apply ([Inst.apply acts].any Inst.isGoto) acts with h | ⟨as, h⟩ <;> simp only [List.filterMap_cons, List.filterMap_nil, h] <;> rfl

theorem goto_apply_goto (acts : List Action) (n : Nat) : instGoto (trimInst [.apply acts, .goto n]) = some n := by
  by_cases h : acts = [] <;> simp [trimInst, trimOne, Inst.isGoto, instGoto, h]

theorem run_apply_goto (sw : Switch) (acts : List Action) (n : Nat) (k : Pkt) :
    runInst sw (trimInst [.apply acts, .goto n]) k = runActs sw.groups acts k := by
  by_cases h : acts = [] <;> simp [trimInst, trimOne, Inst.isGoto, runInst, instActs, instMeta, h, runActs]

theorem stage_vid {k : Pkt} (hs : Stage p k0 vid inner k) {v : Nat} (hv : v < 4096) {items : List MatchItem}
    (h : hitsAll items k = true) (hi : iVlan v ∈ items) : v = vid := by
  obtain ⟨t, r, ht, he⟩ := hits_vlan.1 (hits_mem h hi)
  obtain ⟨pcp, ht'⟩ := hs.tags
  rw [ht'] at ht
  cases ht
  exact (Learn.vidPresent_inj hs.small hv he).symm

theorem stage_in {k : Pkt} (hs : Stage p k0 vid inner k) {n : Nat} {items : List MatchItem}
    (h : hitsAll items k = true) (hi : iInPort n ∈ items) : k0.hdr fInPort = some n := by
  have := hits_inPort.1 (hits_mem h hi)
  rw [hs.hdr _ (by decide)] at this
  exact this

/-- A rule of a later table: what it emits is allowed, and where it sends the packet on. -/
theorem stage_step (hw : c.WF) {sw : Switch} (hg : GroupsOk c sw) {k : Pkt} (hs : Stage p k0 vid inner k) {s : Slot} {inst : List Inst}
    (hf : FlowOk c s inst) (ht : s.table ≠ 0) (hh : hitsAll s.items k = true) :
    (∀ e ∈ (runInst sw inst k).1, Good c p k0 e) ∧
    (∀ n, instGoto inst = some n → n ≠ 0 ∧ Stage p k0 vid inner (runInst sw inst k).2) := by
  cases hf with
  | drop => exact ⟨by simp [runInst, instActs, runActs], by simp [instGoto]⟩
  | @on n _ hn =>
    refine ⟨by simp [runInst, instActs, runActs], ?_⟩
    intro m hm
    have : m = n := by simpa [instGoto, eq_comm] using hm
    refine ⟨by rw [this]; exact hn, ?_⟩
    have : (runInst sw [.goto n] k).2 = k := by simp [runInst, instActs, instMeta, runActs]
    rw [this]; exact hs
  | @ctrlOn n _ hn =>
    have hr : runInst sw [.apply [.output portController], .goto n] k = (emitPort k portController, k) := by
      simp [runInst, instActs, instMeta, runActs]
    rw [hr]
    constructor
    · intro e he
      obtain ⟨h1, h2, h3⟩ := emit_ctrl he
      obtain ⟨pcp, htg⟩ := hs.tags
      exact ⟨fun f hf => by rw [h3]; exact hs.hdr f hf, .controller h1 hs.carried (pcp := pcp) (by rw [h2, htg])⟩
    · intro m hm
      have : m = n := by simpa [instGoto, eq_comm] using hm
      exact ⟨by rw [this]; exact hn, hs⟩
  | lacp h => exact absurd h ht
  | lldp h => exact absurd h ht
  | untagged h => exact absurd h ht
  | tagged h => exact absurd h ht
  | @host q v hp ext _ hq hin hv hpin =>
    have hv' := stage_vid hs (in_small hw hq hin) hh hv
    subst hv'
    unfold Learn.pipelineOutput
    have heg : c.learn.egress = c.egressTo := rfl
    rw [heg]
    unfold Cfg.egressTo
    by_cases he : c.egressPipeline = true
    · rw [if_pos he]
      simp only
      refine ⟨by simp [runInst, instActs, runActs], ?_⟩
      intro m hm
      have hm : m = Pipeline.idOf c.conf (Pipeline.outputTo c.conf) := by simpa [instGoto, eq_comm] using hm
      refine ⟨by rw [hm]; exact ((others_pos c.egressPipeline c.hasHairpin c.useClassification c.ipv4).2.2.2.2.2.2 he).2, ?_, hs.carried, ?_, hs.small⟩
      · intro f hf
        simp [runInst, instActs, instMeta, runActs, writeMeta, hf]
        exact hs.hdr f hf
      · simpa [runInst, instActs, instMeta, runActs, writeMeta] using hs.tags
    · rw [if_neg he]
      simp only
      refine ⟨?_, by simp [instGoto]⟩
      have hmir : c.learn.mirror q.number = q.mirror := by
        show c.mirrors q.number = _
        unfold Cfg.mirrors
        rw [find_of_mem hw hq]
      have hrun : (runInst sw [.apply (Learn.outputPort c.learn q.number v hp ext)] k).1 =
          (runActs sw.groups (Learn.outputPort c.learn q.number v hp ext) k).1 := by
        simp [runInst, instActs]
      rw [hrun]
      unfold Learn.outputPort
      simp only
      rw [hmir]
      have hout : ∀ k' : Pkt, (∀ f, f ≠ fMetadata → k'.hdr f = k0.hdr f) → RightTags q v inner k'.tags →
          ∀ e ∈ (runActs sw.groups [if hp = true then Action.output portInPort else .output q.number] k').1, Good c p k0 e := by
        intro k' hk' ht' e he
        cases hp with
        | true =>
          simp only [if_true, runActs, List.append_nil] at he
          exact good_member hw hs.carried hk' hq ht' (Or.inr ⟨rfl, stage_in hs hh (hpin rfl)⟩) he
        | false =>
          simp only [Bool.false_eq_true, if_false, runActs, List.append_nil] at he
          exact good_member hw hs.carried hk' hq ht' (Or.inl rfl) he
      obtain ⟨pcp, htg⟩ := hs.tags
      by_cases hu : c.learn.untagged v q.number = true
      · rw [if_pos hu]
        have hn : q.native = some v := by
          have hu : c.isUntagged v q.number = true := hu
          unfold Cfg.isUntagged at hu
          obtain ⟨q', hq', hx⟩ := List.any_eq_true.1 hu
          simp only [Bool.and_eq_true, beq_iff_eq] at hx
          rw [← port_inj hw hq' hq hx.1]; exact hx.2
        intro e he
        rw [List.append_assoc, List.singleton_append] at he
        simp only [runActs] at he
        rw [runActs_map_output] at he
        rcases List.mem_append.1 he with he | he
        · obtain ⟨n, hn', he⟩ := List.mem_flatMap.1 he
          exact good_mirror hw (k := Action.popVlan.apply k) hs.carried hs.hdr hq hin hn' he
        · exact hout (Action.popVlan.apply k) hs.hdr (Or.inl ⟨hn, by simp [Action.apply, htg]⟩) e he
      · rw [if_neg hu]
        have hT : v ∈ q.tagged := by
          rcases hin with h | h
          · exfalso
            apply hu
            show c.isUntagged v q.number = true
            unfold Cfg.isUntagged
            exact List.any_eq_true.2 ⟨q, hq, by simp [h]⟩
          · exact h
        intro e he
        rw [List.append_assoc, runActs_map_output] at he
        rcases List.mem_append.1 he with he | he
        · obtain ⟨n, hn', he⟩ := List.mem_flatMap.1 he
          exact good_mirror hw hs.carried hs.hdr hq hin hn' he
        · cases ext with
          | none => exact hout k hs.hdr (Or.inr ⟨hT, pcp, htg⟩) e he
          | some b =>
            cases b with
            | true =>
              refine hout ((Action.setField fVlanPcp pcpExt).apply k) hs.hdr (Or.inr ⟨hT, pcpExt, ?_⟩) e he
              simp [Action.apply, fVlanPcp, fVlanVid, htg]
            | false =>
              refine hout ((Action.setField fVlanPcp pcpNonExt).apply k) hs.hdr (Or.inr ⟨hT, pcpNonExt, ?_⟩) e he
              simp [Action.apply, fVlanPcp, fVlanVid, htg]
  | @egressT q v _ hq hin hv =>
    have hv' := stage_vid hs (in_small hw hq (Or.inr hin)) hh hv
    subst hv'
    refine ⟨?_, by rw [goto_apply]; simp⟩
    intro e he
    rw [Flood.floodRule_emits, runActs_map_output] at he
    rcases List.mem_append.1 he with he | he
    · obtain ⟨n, hn', he⟩ := List.mem_flatMap.1 he
      exact good_mirror hw hs.carried hs.hdr hq (Or.inr hin) hn' he
    · simp only [runActs, List.append_nil] at he
      exact good_member hw hs.carried hs.hdr hq (Or.inr ⟨hin, hs.tags⟩) (Or.inl rfl) he
  | @egressU q v _ hq hin hv =>
    have hv' := stage_vid hs (in_small hw hq (Or.inl hin)) hh hv
    subst hv'
    obtain ⟨pcp, htg⟩ := hs.tags
    refine ⟨?_, by rw [goto_apply]; simp⟩
    intro e he
    rw [Flood.floodRule_emits, List.append_assoc, runActs_map_output] at he
    rcases List.mem_append.1 he with he | he
    · obtain ⟨n, hn', he⟩ := List.mem_flatMap.1 he
      exact good_mirror hw hs.carried hs.hdr hq (Or.inl hin) hn' he
    · simp only [List.singleton_append, runActs, List.append_nil] at he
      exact good_member hw (k := Action.popVlan.apply k) hs.carried hs.hdr hq (Or.inl ⟨hin, by simp [Action.apply, htg]⟩) (Or.inl rfl) he
  | @flood v i acts _ hv hi hin hl =>
    have hv' := stage_vid hs (hw.vid v hv) hh hi
    subst hv'
    refine ⟨?_, by rw [goto_apply]; simp⟩
    intro e he
    rw [Flood.floodRule_emits] at he
    exact good_floodLike hw hs (fun n hn => stage_in hs hh (hin n hn)) (hl sw.groups) e he
  | @group v g hgt _ hv hi hgid =>
    have hv' := stage_vid hs (hw.vid v hv) hh hi
    subst hv'
    refine ⟨?_, by simp [instGoto]⟩
    intro e he
    have hrun : (runInst sw [.apply [.group g]] k).1 = ((sw.groups g).getD []).flatMap (fun b => runBucket b k) := by
      simp [runInst, instActs, runActs]
    rw [hrun] at he
    cases hb : sw.groups g with
    | none => rw [hb] at he; simp at he
    | some bs =>
      rw [hb] at he
      obtain ⟨w, hwm, hwg, hlike⟩ := hg hgt g bs hb
      have h1 := hw.vid v hv
      have h2 := hw.vid w hwm
      have : w.vid = v.vid := by omega
      rw [this] at hlike
      exact good_floodLike hw hs (fun n hn => by cases hn) hlike e he

theorem stage_proc (hw : c.WF) {sw : Switch} (hf : FlowsOk c sw) (hg : GroupsOk c sw) {t : Nat} {k : Pkt} {es : List Emit}
    (hp : Proc sw t k es) : t ≠ 0 → Stage p k0 vid inner k → ∀ e ∈ es, Good c p k0 e := by
  induction hp with
  | miss _ => intro _ _ e he; cases he
  | @done t k s b hhit hgo =>
    intro ht hs
    exact (stage_step hw hg hs (hf _ _ hhit.present) (by rw [hhit.table]; exact ht) hhit.hits).1
  | @next t k s b n es hhit hgo _ ih =>
    intro ht hs e he
    have h := stage_step hw hg hs (hf _ _ hhit.present) (by rw [hhit.table]; exact ht) hhit.hits
    rcases List.mem_append.1 he with he | he
    · exact h.1 e he
    · exact ih (h.2 n hgo).1 (h.2 n hgo).2 e he

theorem ext_stage {k : Pkt} (hs : Stage p k0 vid inner k) (o : Option Nat) (g : Nat → Option (List (List Action))) :
    (runActs g (o.toList.map (.setField fVlanPcp)) k).1 = [] ∧ Stage p k0 vid inner (runActs g (o.toList.map (.setField fVlanPcp)) k).2 := by
  cases o with
  | none => exact ⟨rfl, hs⟩
  | some x =>
    obtain ⟨pcp, ht⟩ := hs.tags
    refine ⟨rfl, hs.hdr, hs.carried, ⟨x, ?_⟩, hs.small⟩
    simp [runActs, Action.apply, fVlanPcp, fVlanVid, ht]

theorem devid_vid {v : Nat} (h : v < 4096) : devidPresent (vidPresent v) = v := by
  unfold devidPresent vidPresent vidPresentBit
  apply Nat.eq_of_testBit_eq
  intro i
  have h4 : Nat.testBit 0x1000 i = decide (i = 12) := by
    rw [show (0x1000 : Nat) = 2 ^ 12 by rfl, Nat.testBit_two_pow]
    simp [eq_comm]
  rw [Nat.testBit_xor, Nat.testBit_or, h4]
  by_cases hi : i = 12
  · subst hi
    have : Nat.testBit v 12 = false := Nat.testBit_lt_two_pow (by simpa using h)
    simp [this]
  · simp [hi]

/-- The first table. -/
theorem first_step (hw : c.WF) {sw : Switch} (hp : p ∈ c.ports) {k : Pkt} (hwire : Wire k) (hin : k.hdr fInPort = some p.number)
    {s : Slot} {inst : List Inst} (hf : FlowOk c s inst) (ht : s.table = 0) (hh : hitsAll s.items k = true) :
    (∀ e ∈ (runInst sw inst k).1, Good c p k e) ∧
    (∀ n, instGoto inst = some n → n ≠ 0 ∧ ∃ vid inner, Stage p k vid inner (runInst sw inst k).2) := by
  have hctl : ControlFrame p k →
      (∀ e ∈ (runInst sw [.apply [.output portController]] k).1, Good c p k e) ∧
      (∀ n, instGoto [.apply [.output portController]] = some n → n ≠ 0 ∧
        ∃ vid inner, Stage p k vid inner (runInst sw [.apply [.output portController]] k).2) := by
    intro hcf
    refine ⟨?_, by simp [instGoto]⟩
    intro e he
    have : (runInst sw [.apply [.output portController]] k).1 = emitPort k portController := by
      simp [runInst, instActs, runActs]
    rw [this] at he
    obtain ⟨h1, h2, h3⟩ := emit_ctrl he
    exact ⟨fun f _ => by rw [h3], .control h1 hcf h2⟩
  have hport : ∀ q : LPort, q ∈ c.ports → iInPort q.number ∈ s.items → q = p := by
    intro q hq hi
    have h := hits_inPort.1 (hits_mem hh hi)
    rw [hin] at h
    exact port_inj hw hq hp (Option.some.inj h).symm
  cases hf with
  | drop => exact ⟨by simp [runInst, instActs, runActs], by simp [instGoto]⟩
  | on h => exact absurd ht h
  | ctrlOn h => exact absurd ht h
  | host h => exact absurd ht h
  | egressT h => exact absurd ht h
  | egressU h => exact absurd ht h
  | flood h => exact absurd ht h
  | group _ h => exact absurd ht h
  | @lacp q _ hq hl hi =>
    have := hport q hq (by rw [hi]; simp [lacpItems])
    subst this
    refine hctl (Or.inl ⟨hl, ?_, ?_⟩)
    · exact (hits_exact (f := fEthDst) (by decide) (by decide)).1 (hits_mem hh (i := iEthDst slowMac) (by rw [hi]; simp [lacpItems]))
    · exact (hits_exact (f := fEthType) (by decide) (by decide)).1 (hits_mem hh (i := ⟨fEthType, slowType, none⟩) (by rw [hi]; simp [lacpItems]))
  | @lldp q _ hq hl hi =>
    have := hport q hq (by rw [hi]; simp [lldpItems])
    subst this
    refine hctl (Or.inr ⟨hl, ?_, ?_⟩)
    · obtain ⟨d, h1, h2⟩ := (hits_masked (f := fEthDst) (by decide) (by decide)).1
        (hits_mem hh (i := ⟨fEthDst, lldpMac, some bridgeMask⟩) (by rw [hi]; simp [lldpItems]))
      exact ⟨d, h1, by simpa [bridgeMask, lldpMac] using h2⟩
    · exact (hits_exact (f := fEthType) (by decide) (by decide)).1 (hits_mem hh (i := ⟨fEthType, lldpType, none⟩) (by rw [hi]; simp [lldpItems]))
  | @untagged q v n _ hq hn hi hn0 =>
    have := hport q hq (by rw [hi]; simp)
    subst this
    have htags : k.tags = [] := hits_untagged.1 (hits_mem hh (by rw [hi]; simp))
    have hsm := in_small hw hq (Or.inl hn)
    have hc : Carried q k.tags v [] := by rw [htags]; exact .untagged hn
    rw [goto_apply_goto, run_apply_goto, List.append_assoc, runActs_map_output]
    have hst : Stage q k v [] ((Action.setField fVlanVid (vidPresent v)).apply ((Action.pushVlan 0x8100).apply k)) := by
      refine ⟨fun f _ => rfl, hc, ⟨0, ?_⟩, hsm⟩
      simp [Action.apply, htags, devid_vid hsm]
    have hx := ext_stage hst (c.extFlag q) sw.groups
    have hr : runActs sw.groups ([.pushVlan 0x8100, .setField fVlanVid (vidPresent v)] ++ (c.extFlag q).toList.map (.setField fVlanPcp)) k
        = runActs sw.groups ((c.extFlag q).toList.map (.setField fVlanPcp))
          ((Action.setField fVlanVid (vidPresent v)).apply ((Action.pushVlan 0x8100).apply k)) := rfl
    rw [hr]
    constructor
    · intro e he
      simp only [hx.1, List.append_nil] at he
      obtain ⟨m, hm, he⟩ := List.mem_flatMap.1 he
      exact good_mirror hw hc (fun f _ => rfl) hq (Or.inl hn) hm he
    · intro m hm
      rw [← Option.some.inj hm]
      exact ⟨hn0, v, [], hx.2⟩
  | @tagged q v n _ hq hn hi hn0 =>
    have := hport q hq (by rw [hi]; simp)
    subst this
    have hsm := in_small hw hq (Or.inr hn)
    obtain ⟨t, r, htags, hv⟩ := hits_vlan.1 (hits_mem hh (i := iVlan v) (by rw [hi]; simp))
    have htv : t.1 = v := Learn.vidPresent_inj (hwire t (by rw [htags]; simp)) hsm hv
    obtain ⟨t1, pcp⟩ := t
    simp only at htv
    subst htv
    have hc : Carried q k.tags t1 r := by rw [htags]; exact .tagged hn
    rw [goto_apply_goto, run_apply_goto, runActs_map_output]
    have hst : Stage q k t1 r k := ⟨fun f _ => rfl, hc, ⟨pcp, htags⟩, hsm⟩
    have hx := ext_stage hst (c.extFlag q) sw.groups
    constructor
    · intro e he
      simp only [hx.1, List.append_nil] at he
      obtain ⟨m, hm, he⟩ := List.mem_flatMap.1 he
      exact good_mirror hw hc (fun f _ => rfl) hq (Or.inr hn) hm he
    · intro m hm
      rw [← Option.some.inj hm]
      exact ⟨hn0, t1, r, hx.2⟩

theorem proc_good (hw : c.WF) {sw : Switch} (hf : FlowsOk c sw) (hg : GroupsOk c sw) (hp : p ∈ c.ports) {k : Pkt} (hwire : Wire k)
    (hin : k.hdr fInPort = some p.number) {es : List Emit} (h : Proc sw 0 k es) : ∀ e ∈ es, Good c p k e := by
  cases h with
  | miss _ => intro e he; cases he
  | done hhit hgo => exact (first_step hw hp hwire hin (hf _ _ hhit.present) hhit.table hhit.hits).1
  | next hhit hgo hnext =>
    have h := first_step (sw := sw) hw hp hwire hin (hf _ _ hhit.present) hhit.table hhit.hits
    intro e he
    rcases List.mem_append.1 he with he | he
    · exact h.1 e he
    · obtain ⟨hn, vid, inner, hs⟩ := h.2 _ hgo
      exact stage_proc hw hf hg hnext hn hs e he

/-- A packet from a port that is not configured is dropped. -/
theorem proc_unknown {sw : Switch} (hf : FlowsOk c sw) {k : Pkt} (hin : ∀ q ∈ c.ports, k.hdr fInPort ≠ some q.number)
    {es : List Emit} (h : Proc sw 0 k es) : es = [] := by
  have key : ∀ s b, Hit sw 0 k s b → b.inst = [] := by
    intro s b hh
    have ht := hh.table
    have hno : ∀ q ∈ c.ports, iInPort q.number ∉ s.items := fun q hq hi => hin q hq (hits_inPort.1 (hits_mem hh.hits hi))
    generalize hb : b.inst = inst
    have hfl := hf _ _ hh.present
    rw [hb] at hfl
    cases hfl with
    | drop => rfl
    | on h => exact absurd ht h
    | ctrlOn h => exact absurd ht h
    | host h => exact absurd ht h
    | egressT h => exact absurd ht h
    | egressU h => exact absurd ht h
    | flood h => exact absurd ht h
    | group _ h => exact absurd ht h
    | lacp _ hq _ hi => exact absurd (by rw [hi]; simp [lacpItems]) (hno _ hq)
    | lldp _ hq _ hi => exact absurd (by rw [hi]; simp [lldpItems]) (hno _ hq)
    | untagged _ hq _ hi => exact absurd (by rw [hi]; simp) (hno _ hq)
    | tagged _ hq _ hi => exact absurd (by rw [hi]; simp) (hno _ hq)
  cases h with
  | miss _ => rfl
  | done hh _ => rw [key _ _ hh]; simp [runInst, instActs, runActs]
  | next hh hg _ => rw [key _ _ hh] at hg; simp [instGoto] at hg

/-! ## Reachable states -/

structure Inv (c : Cfg) (s : Sys) : Prop where
  flows : FlowsOk c s.sw
  groups : GroupsOk c s.sw
  cinv : CInv c.learn s.ctl.learn
  hosts : HostsOk c s.ctl.learn
  seen : ∀ k, s.seen k → SeenOk c k

theorem carried_in {tags inner : List (Nat × Nat)} (h : Carried p tags vid inner) : p.In vid := by
  cases h with
  | untagged h => exact Or.inl h
  | tagged h => exact Or.inr h

/-- Packets that the switch hands to FAUCET are of a VLAN of the port that they came in through. -/
theorem packet_seen (hw : c.WF) {sw : Switch} (hf : FlowsOk c sw) (hg : GroupsOk c sw) {k : Pkt} (hwire : Wire k) (hpl : Plain c k)
    {es : List Emit} (hproc : Proc sw 0 k es) {e : Emit} (he : e ∈ es) (hport : e.port = portController) : SeenOk c (Emit.toPacketIn e) := by
  intro t r ht hv
  by_cases hp : ∃ p ∈ c.ports, k.hdr fInPort = some p.number
  · obtain ⟨p, hp, hin⟩ := hp
    obtain ⟨hsame, hal⟩ := proc_good hw hf hg hp hwire hin hproc e he
    have hpn : (Emit.toPacketIn e).port = p.number := by
      show (e.hdr fInPort).getD 0 = _
      rw [hsame _ (by decide), hin]; rfl
    have ht : e.tags = t :: r := ht
    cases hal with
    | control _ hcf htg =>
      rw [hpl p hp hin hcf, ht] at htg
      cases htg
    | @controller vid inner pcp _ hc htg =>
      rw [ht] at htg
      cases htg
      exact ⟨p, hp, hpn.symm, carried_in hc⟩
    | mirror _ hq hqin hm =>
      have := (hw.mirrors _ hq _ hqin _ hm).1
      rw [hport] at this
      exact absurd this (by unfold RealPort; decide)
    | member _ hq hm _ =>
      have := hw.real _ hq
      rw [← hm, hport] at this
      exact absurd this (by unfold RealPort; decide)
  · have := proc_unknown hf (fun q hq h => hp ⟨q, hq, h⟩) hproc
    subst this
    cases he

theorem reach_inv (hw : c.WF) {s : Sys} (h : Reach c (fun k => Wire k ∧ Plain c k) s) : Inv c s := by
  induction h with
  | @start sw0 now up lag ms ctl sh bar out hsh hr hout =>
    have hinit : HostsOk c Ctl.init.learn := by
      intro vid m e he; simp [host, Ctl.init, Learn.St.init, HostCache.cachedHost] at he
    obtain ⟨-, h2, h3⟩ := react_ok (s := Ctl.init) (Learn.cinv_init _) hinit (by intro now k h; cases h) hr
    have hms : ms = c.connectMsgs (c.connectDyn Ctl.init.dyn up lag) up lag := by
      simp only [Cfg.react, Option.some.injEq, Prod.mk.injEq] at hr
      exact hr.1.symm
    rw [hms] at hout
    have hsw := connect_flows hsh hout sw0
    exact ⟨hsw.1, hsw.2, h2, h3, fun k hk => hk.elim⟩
  | @event s ev ms ctl sh bar out _ hsh hseen hr hout ih =>
    obtain ⟨h1, h2, h3⟩ := react_ok ih.cinv ih.hosts (fun now k hk => ih.seen k (hseen now k hk)) hr
    have hm := out_ok hsh hout h1
    exact ⟨exec_flows_ok ih.flows hm, exec_groups_ok ih.groups hm, h2, h3, ih.seen⟩
  | @packet s k es _ hok hproc ih =>
    refine ⟨ih.flows, ih.groups, ih.cinv, ih.hosts, ?_⟩
    rintro x (hx | ⟨e, he, hport, rfl⟩)
    · exact ih.seen x hx
    · exact packet_seen hw ih.flows ih.groups hok.1 hok.2 hproc he hport
  | @timeout s sl b _ _ _ ih =>
    refine ⟨?_, ih.groups, ih.cinv, ih.hosts, ih.seen⟩
    intro sl' b' hb
    simp only at hb
    split at hb
    · cases hb
    · exact ih.flows sl' b' hb

/-- **C62.** In every reachable state of a standalone switch, every copy of a packet has the content of the packet and goes to
a member of the VLAN that the packet belongs to, with or without the tag as configured, to a mirror of a member, or to FAUCET.
Partial: as long as no tagged LACP or LLDP frames for FAUCET have come in, see `tagged_lacp_breaks_isolation_defect`; not
modelled are stacking, ACLs, routing, 802.1x, tunnels, coprocessors and changes of the configuration. -/
theorem vlan_isolation_partial {c : Cfg} (hw : c.WF) {s : Sys} (h : Reach c (fun k => Wire k ∧ Plain c k) s) {p : LPort}
    (hp : p ∈ c.ports) {k : Pkt} (hk : Wire k) (hin : k.hdr fInPort = some p.number) {es : List Emit} (hes : Proc s.sw 0 k es) :
    ∀ e ∈ es, SameContent k e ∧ Allowed c p k e :=
  have hi := reach_inv hw h
  proc_good hw hi.flows hi.groups hp hk hin hes

/-- **C62.** A packet from a port that is not configured goes nowhere. -/
theorem unknown_port_silent {c : Cfg} (hw : c.WF) {s : Sys} (h : Reach c (fun k => Wire k ∧ Plain c k) s) {k : Pkt}
    (hin : ∀ q ∈ c.ports, k.hdr fInPort ≠ some q.number) {es : List Emit} (hes : Proc s.sw 0 k es) : es = [] :=
  proc_unknown (reach_inv hw h).flows hin hes

/-- **C62.** Hosts that FAUCET knows are on members of their VLAN. -/
theorem hosts_on_members_partial {c : Cfg} (hw : c.WF) {s : Sys} (h : Reach c (fun k => Wire k ∧ Plain c k) s) {vid m : Nat}
    {e : HostCache.Entry} (he : host s.ctl.learn vid m = some e) : ∃ q ∈ c.ports, q.number = e.port.number ∧ q.In vid :=
  (reach_inv hw h).hosts vid m e he

end Faucet.L2
