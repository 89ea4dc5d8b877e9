import Verif.Routed.Spec

/-! # The path of a packet through a switch that routes -/

namespace Faucet.Routed
open Faucet.OF
open Faucet.L2 (LPort RightTags Carried Allowed SameContent URule UFlows Stage Good RealPort stage_step Wire)
open Faucet.Learn (iInPort iEthDst iEthSrc iVlan)

variable {c : RCfg} {K : Nat → Prop} {sw : Switch}

/-! ## Tables of switching -/

/-- The tables that rules of switching send packets to. -/
theorem urule_goto {sl : Slot} {inst : List Inst} {h i n : Nat} (ho : c.Ok) (hr : URule c.l2 K sl inst h i) (hg : instGoto inst = some n) :
    (sl.table = 0 ∧ n = c.l2.tc) ∨ (sl.table = c.l2.tc ∧ n = c.l2.ts) ∨ (sl.table = c.l2.ts ∧ n = c.l2.td) ∨ (sl.table = c.l2.td ∧ n = c.l2.tf) := by
  have hone : ∀ m, instGoto [Inst.goto m] = some n → n = m := fun m h => by simpa [instGoto, eq_comm] using h
  cases hr with
  | dVlan => simp [instGoto] at hg
  | dClass _ => exact Or.inr (Or.inl ⟨rfl, hone _ hg⟩)
  | dSrc => exact Or.inr (Or.inr (Or.inl ⟨rfl, hone _ hg⟩))
  | dDst => exact Or.inr (Or.inr (Or.inr ⟨rfl, hone _ hg⟩))
  | dFlood => simp [instGoto] at hg
  | dFib _ => simp [instGoto] at hg
  | dVip _ => simp [instGoto] at hg
  | untagged => rw [L2.goto_apply_goto] at hg; exact Or.inl ⟨rfl, (Option.some.inj hg).symm⟩
  | tagged => rw [L2.goto_apply_goto] at hg; exact Or.inl ⟨rfl, (Option.some.inj hg).symm⟩
  | untagMiss => simp [instGoto] at hg
  | lldp => simp [instGoto] at hg
  | outOnly => simp [instGoto] at hg
  | bcast => simp [instGoto] at hg
  | ectp => simp [instGoto] at hg
  | spoof => simp [instGoto] at hg
  | unknown => exact Or.inr (Or.inr (Or.inl ⟨rfl, by simpa [instGoto, eq_comm] using hg⟩))
  | src => exact Or.inr (Or.inr (Or.inl ⟨rfl, hone _ hg⟩))
  | ban => simp [instGoto] at hg
  | dst =>
    have : c.l2.learn.egress = none := by show c.l2.egressTo = none; simp [L2.Cfg.egressTo, ho.basic.noEgress]
    simp [Learn.dstInst, Learn.pipelineOutput, this, instGoto] at hg
  | reserved => simp [instGoto] at hg
  | floodV => rw [L2.goto_apply] at hg; cases hg
  | floodP => rw [L2.goto_apply] at hg; cases hg

theorem hit_base {t : Nat} {k : Pkt} {s : Slot} {b : Body} (h : Hit sw t k s b) (hs : c.routing s = false) : Hit (c.base sw) t k s b where
  present := by rw [base_flows, hs]; exact h.present
  table := h.table
  hits := h.hits
  best := by
    intro s' b' h1 h2 h3
    rw [base_flows] at h1
    split at h1
    · cases h1
    · exact h.best s' b' h1 h2 h3

theorem miss_base {t : Nat} {k : Pkt} (h : Miss sw t k) : Miss (c.base sw) t k := by
  intro s b h1 h2
  rw [base_flows] at h1
  split at h1
  · cases h1
  · exact h s b h1 h2

/-- A packet that does not meet rules of routing goes as on the switch without them. -/
theorem proc_base {Q : Nat → Pkt → Prop}
    (hQ : ∀ t k s b, Q t k → Hit sw t k s b → c.routing s = false ∧ ∀ n, instGoto b.inst = some n → Q n (runInst sw b.inst k).2)
    {t : Nat} {k : Pkt} {es : List Emit} (h : Proc sw t k es) : Q t k → Proc (c.base sw) t k es := by
  induction h with
  | miss hm => exact fun _ => .miss (miss_base hm)
  | done hh hg => exact fun hq => .done (hit_base hh (hQ _ _ _ _ hq hh).1) hg
  | next hh hg _ ih =>
    intro hq
    obtain ⟨h1, h2⟩ := hQ _ _ _ _ hq hh
    exact .next (hit_base hh h1) hg (ih (h2 _ hg))

theorem l2_tables (ho : c.Ok) {s : Slot} (h : s.table = c.l2.td ∨ s.table = c.l2.tf ∨ s.table = 0) : c.routing s = false := by
  obtain ⟨hc0, hs0, hd0, hf0, hsd, hsf, hdf, hcd, hcf, -⟩ := ho.basic.distinct
  have hF := ho.basic.fib ho.ipv4
  have hV := ho.basic.vip ho.ipv4
  rw [← Bool.not_eq_true, routing_iff]
  rintro (⟨h' | h', -⟩ | ⟨h', -⟩) <;> rw [h'] at h <;> rcases h with h | h | h
  · exact hF.dst h
  · exact hF.flood h
  · exact hF.zero h
  · exact hV.dst h
  · exact hV.flood h
  · exact hV.zero h
  · exact hcd h
  · exact hcf h
  · exact hc0 h

/-- The tables of destinations and of flooding. -/
theorem out_base (ho : c.Ok) (hf : UFlows c.l2 K (c.base sw)) {t : Nat} {k : Pkt} {es : List Emit} (h : Proc sw t k es)
    (ht : t = c.l2.td ∨ t = c.l2.tf) : Proc (c.base sw) t k es := by
  obtain ⟨hc0, hs0, hd0, hf0, hsd, hsf, hdf, hcd, hcf, -⟩ := ho.basic.distinct
  refine proc_base (Q := fun t _ => t = c.l2.td ∨ t = c.l2.tf) ?_ h ht
  intro t k s b ht hh
  have hr : c.routing s = false := l2_tables ho (by rw [hh.table]; tauto)
  refine ⟨hr, ?_⟩
  intro n hn
  rcases urule_goto ho (hf s b (hit_base hh hr).present) hn with ⟨h1, h2⟩ | ⟨h1, h2⟩ | ⟨h1, h2⟩ | ⟨-, h2⟩
  · rw [hh.table] at h1; rcases ht with h | h <;> rw [h] at h1
    · exact absurd h1 hd0
    · exact absurd h1 hf0
  · rw [hh.table] at h1; rcases ht with h | h <;> rw [h] at h1
    · exact absurd h1.symm hcd
    · exact absurd h1.symm hcf
  · rw [hh.table] at h1; rcases ht with h | h <;> rw [h] at h1
    · exact absurd h1.symm hsd
    · exact absurd h1.symm hsf
  · exact Or.inr h2

/-- Destinations and flooding: nothing goes to FAUCET. -/
theorem out_real (ho : c.Ok) (hf : UFlows c.l2 K sw) {t : Nat} {k : Pkt} {es : List Emit} (h : Proc sw t k es)
    {p : LPort} (hp : p ∈ c.l2.ports) (hin : k.hdr fInPort = some p.number) : t = c.l2.td ∨ t = c.l2.tf → ∀ e ∈ es, RealPort e.port := by
  obtain ⟨hc0, hs0, hd0, hf0, hsd, hsf, hdf, hcd, hcf, -⟩ := ho.basic.distinct
  have hw := ho.wf
  have hlike : ∀ {vid : Nat} {i : Option Nat} {emits : Pkt → List Emit}, (L2.FloodLike c.l2 vid i emits) → ∀ (k : Pkt),
      k.hdr fInPort = some p.number → ∀ e ∈ emits k, RealPort e.port := by
    intro vid i emits hl k hk e he
    obtain ⟨pre, T, U, hpre, heq, hT, hU⟩ := hl k
    have hpk : (Flood.prePkt pre k).hdr fInPort = some p.number := by
      rcases hpre with rfl | rfl
      · exact hk
      · exact hk
    have hem : ∀ (k' : Pkt) (q : LPort), q ∈ c.l2.ports → q.In vid → k'.hdr fInPort = some p.number →
        ∀ n, (n = q.number ∨ n ∈ q.mirror ∨ (n = portInPort ∧ i = some q.number)) → e ∈ emitPort k' n → RealPort e.port := by
      intro k' q hq hqin hk' n hn he
      rcases hn with rfl | hn | ⟨rfl, -⟩
      · rw [(L2.emit_real (hw.real q hq) he).1]; exact hw.real q hq
      · have := (hw.mirrors q hq _ hqin n hn).1
        rw [(L2.emit_real this he).1]; exact this
      · have := (L2.emit_in he).1
        rw [hk'] at this
        rw [← Option.some.inj this]; exact hw.real p hp
    rw [heq] at he
    rcases List.mem_append.1 he with he | he
    · obtain ⟨n, hn, he⟩ := List.mem_flatMap.1 he
      obtain ⟨q, hq, hqin, hn⟩ := hT n hn
      exact hem _ q hq (Or.inr hqin) hpk n hn he
    · obtain ⟨n, hn, he⟩ := List.mem_flatMap.1 he
      obtain ⟨q, hq, hqin, hn⟩ := hU n hn
      exact hem (Action.popVlan.apply (Flood.prePkt pre k)) q hq (Or.inl hqin) hpk n hn he
  have step : ∀ (k : Pkt), k.hdr fInPort = some p.number → ∀ (sl : Slot) (inst : List Inst) (h i : Nat), URule c.l2 K sl inst h i →
      sl.table = c.l2.td ∨ sl.table = c.l2.tf → (∀ e ∈ (runInst sw inst k).1, RealPort e.port) ∧ (instGoto inst ≠ none → (runInst sw inst k).2 = k) := by
    intro k hk sl inst h i hr ht
    have hnil : (∀ e ∈ (runInst sw [] k).1, RealPort e.port) ∧ (instGoto [] ≠ none → (runInst sw [] k).2 = k) :=
      ⟨fun e he => by simp [runInst, instActs, runActs] at he, fun h => by simp [instGoto] at h⟩
    cases hr with
    | dVlan => exact hnil
    | dClass _ => rcases ht with h | h; exacts [absurd h hcd, absurd h hcf]
    | dSrc => rcases ht with h | h; exacts [absurd h hsd, absurd h hsf]
    | dDst => exact ⟨fun e he => by simp [runInst, instActs, runActs] at he, fun _ => by simp [runInst, instActs, instMeta, runActs]⟩
    | dFlood => exact hnil
    | dFib _ => exact hnil
    | dVip _ => exact hnil
    | untagged => rcases ht with h | h; exacts [absurd h.symm hd0, absurd h.symm hf0]
    | tagged => rcases ht with h | h; exacts [absurd h.symm hd0, absurd h.symm hf0]
    | untagMiss => exact hnil
    | lldp => rcases ht with h | h; exacts [absurd h.symm hd0, absurd h.symm hf0]
    | outOnly => exact hnil
    | bcast => exact hnil
    | ectp => exact hnil
    | spoof => exact hnil
    | unknown => rcases ht with h | h; exacts [absurd h hsd, absurd h hsf]
    | src => rcases ht with h | h; exacts [absurd h hsd, absurd h hsf]
    | ban => exact hnil
    | @dst q vid m _ _ hq hqin _ =>
      obtain ⟨k', h1, h2⟩ := L2.output_runs (sw := sw) (k := k) (vid := vid) ho.basic hw hq
      refine ⟨?_, ?_⟩
      · intro e he
        rw [h2] at he
        rcases List.mem_append.1 he with he | he
        · obtain ⟨n, hn, he⟩ := List.mem_flatMap.1 he
          have := (hw.mirrors q hq _ hqin n hn).1
          rw [(L2.emit_real this he).1]; exact this
        · rw [(L2.emit_real (hw.real q hq) he).1]; exact hw.real q hq
      · have : c.l2.learn.egress = none := by show c.l2.egressTo = none; simp [L2.Cfg.egressTo, ho.basic.noEgress]
        intro h
        simp [Learn.dstInst, Learn.pipelineOutput, this, instGoto] at h
    | reserved => exact hnil
    | @floodV d v r hv hr _ =>
      refine ⟨?_, fun h => absurd (L2.goto_apply _) h⟩
      intro e he
      rw [Flood.floodRule_emits] at he
      exact hlike (L2.rule_like c.l2 d v r.unicast false true none sw.groups) k hk e he
    | @floodP d v r q hv hr hq hqin hu =>
      refine ⟨?_, fun h => absurd (L2.goto_apply _) h⟩
      intro e he
      rw [Flood.floodRule_emits] at he
      exact hlike (L2.port_like c.l2 d v r.unicast false r.ethType.isNone (L2.fport d q) sw.groups) k hk e he
  induction h with
  | miss _ => intro _ e he; cases he
  | done hh hg => intro ht; exact (step _ hin _ _ _ _ (hf _ _ hh.present) (by rw [hh.table]; exact ht)).1
  | next hh hg _ ih =>
    intro ht e he
    obtain ⟨h1, h2⟩ := step _ hin _ _ _ _ (hf _ _ hh.present) (by rw [hh.table]; exact ht)
    rcases List.mem_append.1 he with he | he
    · exact h1 e he
    · have hk := h2 (by rw [hg]; simp)
      rw [hk] at ih
      refine ih hin ?_ e he
      rcases urule_goto ho (hf _ _ hh.present) hg with ⟨h, _⟩ | ⟨h, _⟩ | ⟨h, _⟩ | ⟨_, h⟩
      · rw [hh.table] at h; rcases ht with h' | h' <;> rw [h'] at h
        · exact absurd h hd0
        · exact absurd h hf0
      · rw [hh.table] at h; rcases ht with h' | h' <;> rw [h'] at h
        · exact absurd h.symm hcd
        · exact absurd h.symm hcf
      · rw [hh.table] at h; rcases ht with h' | h' <;> rw [h'] at h
        · exact absurd h.symm hsd
        · exact absurd h.symm hsf
      · exact Or.inr h

/-! ## After routing -/

/-- What a route does to the packet. -/
theorem run_route (ho : c.Ok) {v : Route.Vlan} (hv : v ∈ c.vlans) {rv : Nat} (hrv : rv ∈ c.mgr.routed v) (mac : Nat) {k : Pkt} {vid pcp : Nat}
    {inner : List (Nat × Nat)} (ht : k.tags = (vid, pcp) :: inner) (hvid : rv = vid) :
    (runInst sw (c.mgr.routeBody v mac).inst k).1 = [] ∧
    (runInst sw (c.mgr.routeBody v mac).inst k).2.tags = (v.vid, pcp) :: inner ∧
    ∀ f, (runInst sw (c.mgr.routeBody v mac).inst k).2.hdr f = if f = fEthDst then some mac else if f = fEthSrc then some v.mac else k.hdr f := by
  obtain ⟨h1, -, -, h4⟩ := Route.run_nexthop c.mgr v mac sw k vid pcp inner ht (ho.conf.vid v hv)
  refine ⟨h1, ?_, ?_⟩
  · rw [h4]
    cases hr : c.mgr.routers.isEmpty with
    | false => rfl
    | true =>
      have hr' : c.mgr.routers = [] := by simpa using hr
      have hg : c.mgr.isGlobal = false := by simp [Route.Mgr.isGlobal, hr']
      rw [Route.Mgr.routed, hg, hr'] at hrv
      have : rv = v.vid := by simpa using hrv
      simp only [if_true]
      rw [ht, ← this, hvid]
  · intro f
    unfold Route.Mgr.routeBody Route.Mgr.nexthopActs runInst
    cases c.mgr.decTtl <;> cases hr : c.mgr.routers.isEmpty <;>
      simp [instActs, instMeta, runActs, Action.apply, fVlanVid, fVlanPcp, fEthSrc, fEthDst, ht] <;> rfl

/-- A port of only the VLAN, that a routed packet is as if come in through. -/
def asIf (p : LPort) (vid : Nat) : LPort := { p with native := none, tagged := [vid] }

theorem asIf_carried (p : LPort) (vid pcp : Nat) (inner : List (Nat × Nat)) : Carried (asIf p vid) ((vid, pcp) :: inner) vid inner :=
  .tagged (by simp [asIf])

theorem routed_out (ho : c.Ok) (hf : UFlows c.l2 K (c.base sw)) {p : LPort} (hp : p ∈ c.l2.ports) {k0 k : Pkt} {vid : Nat} {inner : List (Nat × Nat)}
    (hst : Stage p k0 vid inner k) (hin : k0.hdr fInPort = some p.number) {v : Route.Vlan} (hv : v ∈ c.vlans) (hrv : vid ∈ c.mgr.routed v) {mac : Nat}
    {es : List Emit} (h : Proc sw c.l2.td (runInst sw (c.mgr.routeBody v mac).inst k).2 es) :
    ∀ e ∈ es, InVlan c v.vid inner e ∧ Rewritten k0 v mac e := by
  obtain ⟨hc0, hs0, hd0, hf0, -⟩ := ho.basic.distinct
  obtain ⟨pcp, htg⟩ := hst.tags
  obtain ⟨-, h2, h3⟩ := run_route (sw := sw) ho hv hrv mac htg rfl
  generalize (runInst sw (c.mgr.routeBody v mac).inst k).2 = k' at h h2 h3
  have hb := out_base ho hf h (Or.inl rfl)
  have hin' : k'.hdr fInPort = some p.number := by
    rw [h3, if_neg (by decide), if_neg (by decide), hst.hdr _ (by decide), hin]
  have hreal := out_real ho hf hb hp hin' (Or.inl rfl)
  have hst' : Stage (asIf p v.vid) k' v.vid inner k' :=
    ⟨fun _ _ => rfl, by rw [h2]; exact asIf_carried p v.vid pcp inner, ⟨pcp, h2⟩, ho.conf.vid v hv⟩
  have hgood := L2.stage_proc ho.wf (L2.flowsOk_u ho.basic hf) (L2.groupsOk_u ho.basic _) hb hd0 hst'
  intro e he
  obtain ⟨hsame, hal⟩ := hgood e he
  have hr := hreal e he
  have hctl : e.port ≠ portController := by
    intro h; rw [h] at hr; revert hr; unfold RealPort; decide
  have hdet : ∀ {vid' inner'}, Carried (asIf p v.vid) k'.tags vid' inner' → vid' = v.vid ∧ inner' = inner := by
    intro vid' inner' hc'
    exact L2.carried_det hc' (by rw [h2]; exact asIf_carried p v.vid pcp inner)
  refine ⟨?_, ?_⟩
  · cases hal with
    | control h => exact absurd h hctl
    | controller h => exact absurd h hctl
    | mirror hc' hq hqin hm =>
      obtain ⟨rfl, rfl⟩ := hdet hc'
      exact Or.inr ⟨_, hq, hqin, hm⟩
    | member hc' hq hn ht =>
      obtain ⟨rfl, rfl⟩ := hdet hc'
      exact Or.inl ⟨_, hq, hn, ht⟩
  · refine ⟨?_, ?_, ?_⟩
    · rw [hsame _ (by decide), h3, if_neg (by decide), if_pos rfl]
    · rw [hsame _ (by decide), h3, if_pos rfl]
    · intro f h1 h4 h5
      rw [hsame _ h1, h3, if_neg h5, if_neg h4, hst.hdr _ h1]

/-! ## Isolation -/

/-- A FIB hit. -/
def FibUse (sw : Switch) (c : RCfg) (k : Pkt) (vid : Nat) (v : Route.Vlan) (mac : Nat) : Prop :=
  ∃ n, Hit sw c.l2.tfib k (c.mgr.slot vid n) (c.mgr.routeBody v mac)

theorem slot_hit (ho : c.Ok) {p : LPort} {k0 k : Pkt} {vid : Nat} {inner : List (Nat × Nat)} (hst : Stage p k0 vid inner k) {rv : Nat} (hrv : rv < 4096) {n : Route.Net}
    (hh : hitsAll (c.mgr.slot rv n).items k = true) : rv = vid :=
  L2.stage_vid hst hrv hh (by simp [Route.Mgr.slot, Route.Mgr.routeMatch, iVlan])

/-- Copies are right in the VLAN of the packet, or routed by the FIB entry that the packet met. -/
def Fate (c : RCfg) (sw : Switch) (p : LPort) (k0 : Pkt) (vid : Nat) (inner : List (Nat × Nat)) (e : Emit) : Prop :=
  Good c.l2 p k0 e ∨ ∃ v ∈ c.vlans, ∃ mac k, vid ∈ c.mgr.routed v ∧ Stage p k0 vid inner k ∧ FibUse sw c k vid v mac ∧
    ForRouter c k0 vid ∧ InVlan c v.vid inner e ∧ Rewritten k0 v mac e

theorem stage_walk (ho : c.Ok) (hf : UFlows c.l2 K (c.base sw)) (hr : RFlows c sw) {p : LPort} (hp : p ∈ c.l2.ports) {k0 : Pkt}
    (hin : k0.hdr fInPort = some p.number) {vid : Nat} {inner : List (Nat × Nat)} {t : Nat} {k : Pkt} {es : List Emit} (h : Proc sw t k es) :
    t ≠ 0 → (t = c.l2.tfib → ForRouter c k0 vid) → Stage p k0 vid inner k → ∀ e ∈ es, Fate c sw p k0 vid inner e := by
  obtain ⟨hc0, hs0, hd0, hf0, hsd, hsf, hdf, hcd, hcf, -⟩ := ho.basic.distinct
  have hF := ho.basic.fib ho.ipv4
  have hV := ho.basic.vip ho.ipv4
  have hFV : c.l2.tfib ≠ c.l2.tvip := (ho.basic.distinctR ho.ipv4).2
  have hctrl : ∀ {k : Pkt}, Stage p k0 vid inner k → ∀ e ∈ emitPort k portController, Fate c sw p k0 vid inner e := by
    intro k hs e he
    obtain ⟨h1, h2, h3⟩ := L2.emit_ctrl he
    obtain ⟨pcp, htg⟩ := hs.tags
    exact Or.inl ⟨fun f hf => by rw [h3]; exact hs.hdr f hf, .controller h1 hs.carried (pcp := pcp) (by rw [h2, htg])⟩
  have hrun1 : ∀ (n : Nat) (k : Pkt), runInst sw [.goto n] k = ([], k) := by
    intro n k; simp [runInst, instActs, instMeta, runActs]
  have hrun2 : ∀ (k : Pkt), (runInst sw [.apply [.output portController]] k).1 = emitPort k portController := by
    intro k; simp [runInst, instActs, runActs]
  have hrun3 : ∀ (n : Nat) (k : Pkt), runInst sw [.goto n, .apply [.output portController]] k = (emitPort k portController, k) := by
    intro n k; simp [runInst, instActs, instMeta, runActs]
  have step : ∀ (t : Nat) (k : Pkt) (s : Slot) (b : Body), Hit sw t k s b → t ≠ 0 → (t = c.l2.tfib → ForRouter c k0 vid) → Stage p k0 vid inner k →
      (∀ e ∈ (runInst sw b.inst k).1, Fate c sw p k0 vid inner e) ∧
      ∀ n es, instGoto b.inst = some n → Proc sw n (runInst sw b.inst k).2 es →
        (n ≠ 0 → (n = c.l2.tfib → ForRouter c k0 vid) → Stage p k0 vid inner (runInst sw b.inst k).2 → ∀ e ∈ es, Fate c sw p k0 vid inner e) →
        ∀ e ∈ es, Fate c sw p k0 vid inner e := by
    intro t k s b hh ht hfr hst
    have hgoto : ∀ (m : Nat), m ≠ 0 → b.inst = [.goto m] → (m = c.l2.tfib → ForRouter c k0 vid) →
        (∀ e ∈ (runInst sw b.inst k).1, Fate c sw p k0 vid inner e) ∧
        ∀ n es, instGoto b.inst = some n → Proc sw n (runInst sw b.inst k).2 es →
          (n ≠ 0 → (n = c.l2.tfib → ForRouter c k0 vid) → Stage p k0 vid inner (runInst sw b.inst k).2 → ∀ e ∈ es, Fate c sw p k0 vid inner e) →
          ∀ e ∈ es, Fate c sw p k0 vid inner e := by
      intro m hm hi hmf
      rw [hi, hrun1]
      refine ⟨fun e he => (List.not_mem_nil he).elim, ?_⟩
      intro n es hn _ ih
      have hnm : n = m := by simpa [instGoto, eq_comm] using hn
      subst hnm
      exact ih hm hmf hst
    have happly : b.inst = [.apply [.output portController]] →
        (∀ e ∈ (runInst sw b.inst k).1, Fate c sw p k0 vid inner e) ∧
        ∀ n es, instGoto b.inst = some n → Proc sw n (runInst sw b.inst k).2 es →
          (n ≠ 0 → (n = c.l2.tfib → ForRouter c k0 vid) → Stage p k0 vid inner (runInst sw b.inst k).2 → ∀ e ∈ es, Fate c sw p k0 vid inner e) →
          ∀ e ∈ es, Fate c sw p k0 vid inner e := by
      intro hi
      rw [hi, hrun2]
      refine ⟨hctrl hst, ?_⟩
      intro n es hn
      simp [instGoto] at hn
    have hboth : b.inst = [.goto c.l2.td, .apply [.output portController]] →
        (∀ e ∈ (runInst sw b.inst k).1, Fate c sw p k0 vid inner e) ∧
        ∀ n es, instGoto b.inst = some n → Proc sw n (runInst sw b.inst k).2 es →
          (n ≠ 0 → (n = c.l2.tfib → ForRouter c k0 vid) → Stage p k0 vid inner (runInst sw b.inst k).2 → ∀ e ∈ es, Fate c sw p k0 vid inner e) →
          ∀ e ∈ es, Fate c sw p k0 vid inner e := by
      intro hi
      rw [hi, hrun3]
      refine ⟨hctrl hst, ?_⟩
      intro n es hn _ ih
      have hnm : n = c.l2.td := by simpa [instGoto, eq_comm] using hn
      subst hnm
      exact ih hd0 (fun h => absurd h.symm hF.dst) hst
    cases hrt : c.routing s with
    | false =>
      have hu := hf s b (hit_base hh hrt).present
      obtain ⟨h1, h2⟩ := stage_step ho.wf (sw := sw) (L2.groupsOk_u ho.basic sw) hst (L2.urule_flowOk ho.basic hu) (by rw [hh.table]; exact ht) hh.hits
      refine ⟨fun e he => Or.inl (h1 e he), ?_⟩
      intro n es hn _ ih
      refine ih (h2 n hn).1 ?_ (h2 n hn).2
      intro hnf
      rcases urule_goto ho hu hn with ⟨-, h⟩ | ⟨-, h⟩ | ⟨-, h⟩ | ⟨-, h⟩ <;> rw [hnf] at h
      · exact absurd h hF.cls
      · exact absurd h hF.src
      · exact absurd h hF.dst
      · exact absurd h hF.flood
    | true =>
      have hrule := hr s b hrt hh.present
      have hhits := hh.hits
      have htab := hh.table
      cases hrule with
      | selArp hv _ => exact hgoto _ hV.zero rfl (fun h => absurd h.symm hFV)
      | @selIp w hv hne =>
        refine hgoto _ hF.zero rfl (fun _ => ⟨?_, w, hv, ?_, hne, ?_⟩)
        · have := (hits_exact (f := fEthType) (by decide) (by decide)).1 (L2.hits_mem hhits (i := iType typeIp) (by simp))
          rw [hst.hdr _ (by decide)] at this; exact this
        · exact L2.stage_vid hst (ho.conf.vid w hv) hhits (by simp)
        · have := (hits_exact (f := fEthDst) (by decide) (by decide)).1 (L2.hits_mem hhits (i := iEthDst w.mac) (by simp))
          rw [hst.hdr _ (by decide)] at this; exact this
      | vipAsk => exact happly rfl
      | vipReply => exact happly rfl
      | vipArp => exact hgoto _ hd0 rfl (fun h => absurd h.symm hF.dst)
      | icmpUs => exact happly rfl
      | icmp => exact hboth rfl
      | ipUs => exact happly rfl
      | ip => exact hboth rfl
      | @route v rv n mac hv hrv =>
        have hvid := slot_hit ho hst (Route.routed_lt ho.conf hv hrv) hhits
        subst hvid
        obtain ⟨pcp, htg⟩ := hst.tags
        have hrt := run_route (sw := sw) ho hv hrv mac htg rfl
        refine ⟨fun e he => ?_, ?_⟩
        · rw [hrt.1] at he; cases he
        · intro m es hm hproc _ e he
          have hm' : m = c.mgr.toL2 := by simpa [Route.Mgr.routeBody, instGoto, eq_comm] using hm
          have hm' : m = c.l2.td := hm'.trans (outId_eq ho)
          subst hm'
          obtain ⟨h1, h2⟩ := routed_out ho hf hp hst hin hv hrv hproc e he
          have htab : c.l2.tfib = t := htab
          exact Or.inr ⟨v, hv, mac, k, hrv, hst, ⟨n, by rw [htab]; exact hh⟩, hfr htab.symm, h1, h2⟩
      | hole =>
        refine ⟨fun e he => ?_, ?_⟩
        · simp [Route.Mgr.holeBody, runInst, instActs, runActs] at he
        · intro n es hn; simp [Route.Mgr.holeBody, instGoto] at hn
      | vip => exact hgoto _ hV.zero rfl (fun h => absurd h.symm hFV)
  induction h with
  | miss _ => intro _ _ _ e he; cases he
  | done hh _ => intro h1 h2 h3; exact (step _ _ _ _ hh h1 h2 h3).1
  | next hh hg hp ih =>
    intro h1 h2 h3 e he
    obtain ⟨h4, h5⟩ := step _ _ _ _ hh h1 h2 h3
    rcases List.mem_append.1 he with he | he
    · exact h4 e he
    · exact h5 _ _ hg hp ih e he

theorem walk_fate (ho : c.Ok) (hf : UFlows c.l2 K (c.base sw)) (hr : RFlows c sw) {p : LPort} (hp : p ∈ c.l2.ports) {k0 : Pkt} (hk : Wire k0)
    (hin : k0.hdr fInPort = some p.number) {es : List Emit} (h : Proc sw 0 k0 es) :
    ∀ e ∈ es, Good c.l2 p k0 e ∨ ∃ vid inner, Carried p k0.tags vid inner ∧ Fate c sw p k0 vid inner e := by
  have hF := ho.basic.fib ho.ipv4
  have step : ∀ s b, Hit sw 0 k0 s b → _ := fun s b hh =>
    L2.first_step (sw := sw) ho.wf hp hk hin (L2.urule_flowOk ho.basic (hf s b (hit_base hh (l2_tables ho (Or.inr (Or.inr hh.table)))).present)) hh.table hh.hits
  cases h with
  | miss _ => intro e he; cases he
  | done hh hg => exact fun e he => Or.inl ((step _ _ hh).1 e he)
  | next hh hg hn =>
    intro e he
    rcases List.mem_append.1 he with he | he
    · exact Or.inl ((step _ _ hh).1 e he)
    · obtain ⟨h1, vid, inner, h2⟩ := (step _ _ hh).2 _ hg
      refine Or.inr ⟨vid, inner, h2.carried, stage_walk ho hf hr hp hin hn h1 ?_ h2 e he⟩
      intro hnf
      rcases urule_goto ho (hf _ _ (hit_base hh (l2_tables ho (Or.inr (Or.inr hh.table)))).present) hg with ⟨-, h⟩ | ⟨-, h⟩ | ⟨-, h⟩ | ⟨-, h⟩ <;> rw [hnf] at h
      · exact absurd h hF.cls
      · exact absurd h hF.src
      · exact absurd h hF.dst
      · exact absurd h hF.flood

theorem walk_unknown (ho : c.Ok) (hf : UFlows c.l2 K (c.base sw)) {k : Pkt} (hin : ∀ q ∈ c.l2.ports, k.hdr fInPort ≠ some q.number)
    {es : List Emit} (h : Proc sw 0 k es) : es = [] := by
  have hbase : ∀ s b, Hit sw 0 k s b → Hit (c.base sw) 0 k s b := fun s b hh => hit_base hh (l2_tables ho (Or.inr (Or.inr hh.table)))
  have hflows := L2.flowsOk_u ho.basic hf
  cases h with
  | miss _ => rfl
  | done hh hg =>
    exact L2.proc_unknown (c := c.l2) (sw := c.base sw) hflows hin (.done (hbase _ _ hh) hg)
  | next hh hg _ =>
    exfalso
    rename_i s b n es _
    have hu := hf s b (hbase _ _ hh).present
    have ht := hh.table
    have hhits := hh.hits
    generalize b.inst = inst, b.hard = h1, b.idle = h2 at hu hg
    have hno : ∀ q ∈ c.l2.ports, iInPort q.number ∉ s.items := fun q hq hi => hin q hq (L2.hits_inPort.1 (L2.hits_mem hhits hi))
    cases hu with
    | untagged hq => exact hno _ hq (by simp)
    | tagged hq => exact hno _ hq (by simp)
    | _ =>
      obtain ⟨hc0, hs0, hd0, hf0, -⟩ := ho.basic.distinct
      first
        | exact hc0 ht
        | exact hs0 ht
        | exact hd0 ht
        | exact hf0 ht
        | (simp [instGoto] at hg)

/-- What FAUCET is sent is of a VLAN of the port. -/
theorem walk_seen (ho : c.Ok) (hf : UFlows c.l2 K (c.base sw)) (hr : RFlows c sw) {k : Pkt} (hk : Wire k) (hpl : L2.Plain c.l2 k)
    {es : List Emit} (h : Proc sw 0 k es) {e : Emit} (he : e ∈ es) (hport : e.port = portController) : L2.SeenOk c.l2 (L2.Emit.toPacketIn e) := by
  have hw := ho.wf
  intro t r ht hv
  by_cases hp : ∃ p ∈ c.l2.ports, k.hdr fInPort = some p.number
  · obtain ⟨p, hp, hin⟩ := hp
    have hgood : Good c.l2 p k e := by
      have hno : ∀ vid inner, InVlan c vid inner e → False := by
        rintro vid inner (⟨q, hq, hn, -⟩ | ⟨q, hq, hqin, hm⟩)
        · have := hw.real _ hq
          rw [← hn, hport] at this
          exact absurd this (by unfold RealPort; decide)
        · have := (hw.mirrors _ hq _ hqin _ hm).1
          rw [hport] at this
          exact absurd this (by unfold RealPort; decide)
      rcases walk_fate ho hf hr hp hk hin h e he with h | ⟨vid, inner, -, h | ⟨v, -, mac, k', -, -, -, -, h, -⟩⟩
      · exact h
      · exact h
      · exact (hno _ _ h).elim
    obtain ⟨hsame, hal⟩ := hgood
    have hpn : (L2.Emit.toPacketIn e).port = p.number := by
      show (e.hdr fInPort).getD 0 = _
      rw [hsame _ (by decide), hin]; rfl
    have ht : e.tags = t :: r := ht
    cases hal with
    | control _ hcf htg =>
      rw [hpl p hp hin hcf, ht] at htg
      cases htg
    | @controller vid inner pcp _ hc htg =>
      rw [ht] at htg
      cases htg
      exact ⟨p, hp, hpn.symm, L2.carried_in hc⟩
    | mirror _ hq hqin hm =>
      have := (hw.mirrors _ hq _ hqin _ hm).1
      rw [hport] at this
      exact absurd this (by unfold RealPort; decide)
    | member _ hq hm _ =>
      have := hw.real _ hq
      rw [← hm, hport] at this
      exact absurd this (by unfold RealPort; decide)
  · have := walk_unknown ho hf (fun q hq h => hp ⟨q, hq, h⟩) h
    subst this
    cases he

end Faucet.Routed
