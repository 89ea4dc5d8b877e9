import Verif.L2.UInv

/-! # One standalone switch: delivery (C63) -/

namespace Faucet.L2
open Faucet.OF
open Faucet.Learn (iInPort iEthDst iEthSrc iVlan host CInv)

variable {c : Cfg} {K : Nat → Prop} {sw : Switch} {u : Nat → Bool} {p : LPort} {k0 k : Pkt} {vid : Nat} {inner : List (Nat × Nat)}
  {src dst : Nat} {es : List Emit}

/-- With a rule that matches, the packet does not miss; the rule that is hit has at least its priority. -/
theorem proc_hit {t : Nat} (hp : Proc sw t k es) {sl : Slot} (hs : sw.flows sl ≠ none) (ht : sl.table = t) (hh : hitsAll sl.items k = true) :
    ∃ s b, Hit sw t k s b ∧ sl.priority ≤ s.priority ∧
      ((instGoto b.inst = none ∧ es = (runInst sw b.inst k).1) ∨
       ∃ n es', instGoto b.inst = some n ∧ Proc sw n (runInst sw b.inst k).2 es' ∧ es = (runInst sw b.inst k).1 ++ es') := by
  obtain ⟨x, hx⟩ := Option.ne_none_iff_exists'.1 hs
  cases hp with
  | miss hm => rw [hm sl x hx ht] at hh; cases hh
  | done hhit hg => exact ⟨_, _, hhit, hhit.best sl x hx ht hh, Or.inl ⟨hg, rfl⟩⟩
  | next hhit hg hp => exact ⟨_, _, hhit, hhit.best sl x hx ht hh, Or.inr ⟨_, _, hg, hp, rfl⟩⟩

theorem hit_goto {t n : Nat} {s : Slot} {b : Body} (_ : Hit sw t k s b) (hi : b.inst = [.goto n])
    (h : (instGoto b.inst = none ∧ es = (runInst sw b.inst k).1) ∨
       ∃ n es', instGoto b.inst = some n ∧ Proc sw n (runInst sw b.inst k).2 es' ∧ es = (runInst sw b.inst k).1 ++ es') : Proc sw n k es := by
  rw [hi] at h
  rcases h with ⟨h, -⟩ | ⟨m, es', h1, h2, h3⟩
  · simp [instGoto] at h
  · have hm : m = n := by simpa [instGoto, eq_comm] using h1
    have hr : runInst sw [.goto n] k = ([], k) := by simp [runInst, instActs, instMeta, runActs]
    rw [hr] at h2 h3
    rw [h3, ← hm]; exact h2

theorem not_reserved (ho : Ordinary c p k0 vid inner src dst) {k : Pkt} (hk : k.hdr fEthDst = k0.hdr fEthDst) {d : Nat × Nat}
    (hd : d ∈ Flood.reservedDsts) : (⟨fEthDst, d.1, some d.2⟩ : MatchItem).hits k = false := by
  by_contra hh
  have hh : (⟨fEthDst, d.1, some d.2⟩ : MatchItem).hits k = true := by simpa using hh
  obtain ⟨x, hx, hm⟩ := (hits_masked (by decide) (by decide)).1 hh
  rw [hk, ho.to_] at hx
  obtain rfl := Option.some.inj hx
  obtain ⟨y, hy, hr⟩ := (Flood.reserved_iff ho.to_ ho.mac).1 ⟨d, hd, hm⟩
  rw [ho.to_] at hy
  obtain rfl := Option.some.inj hy
  have := ho.notReserved
  tauto

/-! ## The first table -/

/-- Also for switches with other rules in other tables. -/
theorem first_table_hit (hw : c.WF) (hb : c.Basic) (hf : ∀ s b, Hit sw 0 k0 s b → URule c K s b.inst b.hard b.idle)
    (hn : ∀ sl, Needed c u sl → sl.table = 0 → sw.flows sl ≠ none) (hp : p ∈ c.ports)
    (ht : Takes u p) (ho : Ordinary c p k0 vid inner src dst) (hes : Proc sw 0 k0 es) :
    ∃ es0 es1 k, es = es0 ++ es1 ∧ (∀ e ∈ es0, e.port ∈ p.mirror) ∧ Stage p k0 vid inner k ∧ Proc sw c.tc k es1 := by
  obtain ⟨hc0, hs0, hd0, hf0, -⟩ := hb.distinct
  have hsmall := in_small hw hp (carried_in ho.carried)
  obtain ⟨sl, hsl, hpr, htab, hh⟩ : ∃ sl, sw.flows sl ≠ none ∧ sl.priority = lowPriority ∧ sl.table = 0 ∧ hitsAll sl.items k0 = true := by
    have hin := hits_inPort.2 ho.port
    have hc := ho.carried
    generalize htg : k0.tags = tags at hc
    cases hc with
    | untagged hnat =>
      exact ⟨_, hn _ (.untagged hp ht.1 ht.2.2 hnat) rfl, rfl, rfl, by simp [hitsAll, hin, hits_untagged.2 htg]⟩
    | @tagged _ pcp _ hv =>
      refine ⟨_, hn _ (.tagged hp ht.1 ht.2.2 hv) rfl, rfl, rfl, ?_⟩
      simp [hitsAll, hin, hits_vlan.2 ⟨(vid, pcp), inner, htg, rfl⟩]
  obtain ⟨s, b, hhit, hle, hcase⟩ := proc_hit hes hsl htab hh
  rw [hpr] at hle
  have hr := hf s b hhit
  have htab := hhit.table
  have hhits := hhit.hits
  have hport : ∀ q : LPort, q ∈ c.ports → iInPort q.number ∈ s.items → q = p := by
    intro q hq hi
    have h := hits_inPort.1 (hits_mem hhits hi)
    rw [ho.port] at h
    exact port_inj hw hq hp (Option.some.inj h).symm
  have hgo : ∀ acts, (∃ k, (runActs sw.groups acts k0).2 = k ∧ Stage p k0 vid inner k) →
      (∀ e ∈ (runActs sw.groups acts k0).1, e.port ∈ p.mirror) → b.inst = trimInst [.apply acts, .goto c.tc] →
      ∃ es0 es1 k, es = es0 ++ es1 ∧ (∀ e ∈ es0, e.port ∈ p.mirror) ∧ Stage p k0 vid inner k ∧ Proc sw c.tc k es1 := by
    rintro acts ⟨k, hk, hst⟩ hem hi
    rw [hi] at hcase
    rcases hcase with ⟨h, -⟩ | ⟨m, es', h1, h2, h3⟩
    · rw [goto_apply_goto] at h; cases h
    · rw [goto_apply_goto] at h1
      obtain rfl := Option.some.inj h1
      rw [run_apply_goto] at h2 h3
      rw [hk] at h2
      exact ⟨_, _, k, h3, hem, hst, h2⟩
  have hmir : ∀ (k : Pkt), ∀ e ∈ p.mirror.flatMap (emitPort k), e.port ∈ p.mirror := by
    intro k e he
    obtain ⟨n, hn, he⟩ := List.mem_flatMap.1 he
    rw [(emit_real (hw.mirrors p hp _ (carried_in ho.carried) n hn).1 he).1]; exact hn
  generalize hinst : b.inst = inst, b.hard = h1, b.idle = h2 at hr
  cases hr with
  | dVlan => exact absurd (show lowPriority ≤ 0 from hle) (by decide)
  | dClass _ => exact absurd htab hc0
  | dSrc => exact absurd htab hs0
  | dDst => exact absurd htab hd0
  | dFlood => exact absurd htab hf0
  | dFib h => exact absurd htab (hb.fib h).zero
  | dVip h => exact absurd htab (hb.vip h).zero
  | @untagged q v hq hv =>
    obtain rfl := hport q hq (by simp)
    have htg := hits_untagged.1 (hits_mem hhits (i := iUntagged) (by simp))
    have hvv : v = vid ∧ inner = [] := by
      have hc := ho.carried
      rw [htg] at hc
      cases hc with
      | untagged h => rw [hv] at h; exact ⟨Option.some.inj h, rfl⟩
    refine hgo _ ⟨_, rfl, ?_⟩ ?_ hinst
    · rw [runActs_map_output]
      obtain ⟨rfl, rfl⟩ := hvv
      refine ⟨?_, ho.carried, ⟨0, ?_⟩, hsmall⟩
      · intro f hf; simp [runActs, Action.apply, fVlanVid, fVlanPcp]
      · simp [runActs, Action.apply, htg, devid_vid hsmall]
    · rw [runActs_map_output]
      simp only [runActs, List.append_nil]
      exact hmir k0
  | @tagged q v hq hv =>
    obtain rfl := hport q hq (by simp)
    obtain ⟨t, r, htg, he⟩ := hits_vlan.1 (hits_mem hhits (i := iVlan v) (by simp))
    refine hgo _ ⟨k0, ?_, ?_⟩ ?_ hinst
    · rw [runActs_outputs]
    · refine ⟨fun _ _ => rfl, ho.carried, ?_, hsmall⟩
      have hc := ho.carried
      rw [htg] at hc
      cases hc with
      | @tagged _ pcp _ h => exact ⟨pcp, htg⟩
    · rw [runActs_outputs]; exact hmir k0
  | @untagMiss q hq hno =>
    obtain rfl := hport q hq (by simp)
    have htg := hits_untagged.1 (hits_mem hhits (i := iUntagged) (by simp))
    have hc := ho.carried
    rw [htg] at hc
    cases hc with
    | untagged h => rw [hno] at h; cases h
  | @lldp q hq =>
    exfalso
    have h := hits_mem hhits (i := ⟨fEthDst, lldpMac, some bridgeMask⟩) (by simp [lldpItems])
    have := not_reserved ho (k := k0) rfl (d := (0x0180C2000000, 0xFFFFFFFFFFF0)) (by simp [Flood.reservedDsts])
    obtain ⟨x, hx, hm⟩ := (hits_masked (by decide) (by decide)).1 h
    rw [← Bool.not_eq_true] at this
    exact this ((hits_masked (by decide) (by decide)).2 ⟨x, hx, hm⟩)
  | @outOnly q hq hout =>
    obtain rfl := hport q hq (by simp)
    rw [ht.2.1] at hout; cases hout
  | bcast => exact absurd htab hc0
  | ectp => exact absurd htab hc0
  | spoof => exact absurd htab hc0
  | unknown => exact absurd htab hs0
  | src => exact absurd htab hs0
  | ban => exact absurd htab hs0
  | dst => exact absurd htab hd0
  | reserved => exact absurd htab hf0
  | floodV => exact absurd htab hf0
  | floodP => exact absurd htab hf0

theorem first_table (hw : c.WF) (hb : c.Basic) (hf : UFlows c K sw) (hn : ∀ sl, Needed c u sl → sw.flows sl ≠ none) (hp : p ∈ c.ports)
    (ht : Takes u p) (ho : Ordinary c p k0 vid inner src dst) (hes : Proc sw 0 k0 es) :
    ∃ es0 es1 k, es = es0 ++ es1 ∧ (∀ e ∈ es0, e.port ∈ p.mirror) ∧ Stage p k0 vid inner k ∧ Proc sw c.tc k es1 :=
  first_table_hit hw hb (fun s b h => hf s b h.present) (fun sl h _ => hn sl h) hp ht ho hes

/-! ## Classification -/

theorem not_filtered (ho : Ordinary c p k0 vid inner src dst) (hst : Stage p k0 vid inner k) :
    (iEthSrc broadcastMac).hits k = false ∧ (⟨fEthType, ectpType, none⟩ : MatchItem).hits k = false ∧
    ∀ v ∈ c.vlans, (iEthSrc v.faucetMac).hits k = false := by
  have hsrc : ∀ m, src ≠ m → (iEthSrc m).hits k = false := by
    intro m hm
    by_contra h
    have h := (hits_exact (f := fEthSrc) (by decide) (by decide)).1 (by simpa using h : (iEthSrc m).hits k = true)
    rw [hst.hdr _ (by decide), ho.from_] at h
    exact hm (Option.some.inj h)
  refine ⟨hsrc _ ho.notBroadcast, ?_, fun v hv => hsrc _ (ho.notGateway v hv)⟩
  by_contra h
  have h := (hits_exact (by decide) (by decide)).1 (by simpa using h : (⟨fEthType, ectpType, none⟩ : MatchItem).hits k = true)
  rw [hst.hdr _ (by decide)] at h
  exact ho.type h

theorem class_table (hb : c.Basic) (hf : UFlows c K sw) (hn : ∀ sl, Needed c u sl → sw.flows sl ≠ none)
    (ho : Ordinary c p k0 vid inner src dst) (hst : Stage p k0 vid inner k) (hes : Proc sw c.tc k es) : Proc sw c.ts k es := by
  obtain ⟨hc0, hs0, hd0, hf0, hsd, hsf, hdf, hcd, hcf, hcs, hcs', -⟩ := hb.distinct
  obtain ⟨hf1, hf2, hf3⟩ := not_filtered ho hst
  cases huc : c.useClassification with
  | false => rw [← hcs' huc]; exact hes
  | true =>
    have hcs := hcs huc
    obtain ⟨s, b, hhit, -, hcase⟩ := proc_hit hes (hn _ (.cls huc)) rfl rfl
    have hr := hf s b hhit.present
    have htab := hhit.table
    have hhits := hhit.hits
    generalize hinst : b.inst = inst, b.hard = h1, b.idle = h2 at hr
    cases hr with
    | dVlan => exact absurd htab.symm hc0
    | dClass _ => exact hit_goto hhit hinst hcase
    | dSrc => exact absurd htab.symm hcs
    | dDst => exact absurd htab.symm hcd
    | dFlood => exact absurd htab.symm hcf
    | dFib h => exact absurd htab (hb.fib h).cls
    | dVip h => exact absurd htab (hb.vip h).cls
    | untagged => exact absurd htab.symm hc0
    | tagged => exact absurd htab.symm hc0
    | untagMiss => exact absurd htab.symm hc0
    | lldp => exact absurd htab.symm hc0
    | outOnly => exact absurd htab.symm hc0
    | bcast => have := hits_mem hhits (i := iEthSrc broadcastMac) (by simp); rw [hf1] at this; cases this
    | ectp => have := hits_mem hhits (i := ⟨fEthType, ectpType, none⟩) (by simp); rw [hf2] at this; cases this
    | @spoof v hv => have := hits_mem hhits (i := iEthSrc v.faucetMac) (by simp); rw [hf3 v hv] at this; cases this
    | unknown => exact absurd htab.symm hcs
    | src => exact absurd htab.symm hcs
    | ban => exact absurd htab.symm hcs
    | dst => exact absurd htab.symm hcd
    | reserved => exact absurd htab.symm hcf
    | floodV => exact absurd htab.symm hcf
    | floodP => exact absurd htab.symm hcf

/-! ## Sources -/

theorem src_table (hw : c.WF) (hb : c.Basic) (hf : UFlows c K sw) (hn : ∀ sl, Needed c u sl → sw.flows sl ≠ none) (hban : NoBan sw)
    (hp : p ∈ c.ports) (ho : Ordinary c p k0 vid inner src dst) (hst : Stage p k0 vid inner k) (hes : Proc sw c.ts k es) :
    ∃ es0 es1, es = es0 ++ es1 ∧ Proc sw c.td k es1 ∧ (es0 = emitPort k portController ∨ (es0 = [] ∧ K src)) := by
  obtain ⟨hc0, hs0, hd0, hf0, hsd, hsf, hdf, hcd, hcf, hcs, hcs', -⟩ := hb.distinct
  obtain ⟨hf1, hf2, hf3⟩ := not_filtered ho hst
  obtain ⟨v, hv, hvid⟩ := hw.known p hp vid (carried_in ho.carried)
  obtain ⟨pcp, htags⟩ := hst.tags
  obtain ⟨s, b, hhit, hle, hcase⟩ := proc_hit hes (hn _ (.unknown hv)) rfl (by
    simp [hitsAll, hits_vlan.2 ⟨(vid, pcp), inner, htags, congrArg vidPresent hvid.symm⟩])
  have hle : lowPriority ≤ s.priority := hle
  have hr := hf s b hhit.present
  have htab := hhit.table
  have hhits := hhit.hits
  generalize hinst : b.inst = inst, hhard : b.hard = h1, b.idle = h2 at hr
  cases hr with
  | dVlan => exact absurd htab.symm hs0
  | dClass h => exact absurd htab (hcs h)
  | dSrc => exact absurd (show lowPriority ≤ 0 from hle) (by decide)
  | dDst => exact absurd htab.symm hsd
  | dFlood => exact absurd htab.symm hsf
  | dFib h => exact absurd htab (hb.fib h).src
  | dVip h => exact absurd htab (hb.vip h).src
  | untagged => exact absurd htab.symm hs0
  | tagged => exact absurd htab.symm hs0
  | untagMiss => exact absurd htab.symm hs0
  | lldp => exact absurd htab.symm hs0
  | outOnly => exact absurd htab.symm hs0
  | bcast => have := hits_mem hhits (i := iEthSrc broadcastMac) (by simp); rw [hf1] at this; cases this
  | ectp => have := hits_mem hhits (i := ⟨fEthType, ectpType, none⟩) (by simp); rw [hf2] at this; cases this
  | @spoof v hv => have := hits_mem hhits (i := iEthSrc v.faucetMac) (by simp); rw [hf3 v hv] at this; cases this
  | unknown =>
    rw [hinst] at hcase
    rcases hcase with ⟨h, -⟩ | ⟨m, es', h1, h2, h3⟩
    · simp [instGoto] at h
    · have hm : m = c.td := by simpa [instGoto, eq_comm] using h1
      have hr : runInst sw [.apply [.output portController], .goto c.td] k = (emitPort k portController, k) := by
        simp [runInst, instActs, instMeta, runActs]
      rw [hr] at h2 h3
      rw [hm] at h2
      exact ⟨_, _, h3, h2, Or.inl rfl⟩
  | @src n v m _ _ hk =>
    have h := (hits_exact (f := fEthSrc) (by decide) (by decide)).1 (hits_mem hhits (i := iEthSrc m) (by simp))
    rw [hst.hdr _ (by decide), ho.from_] at h
    obtain rfl := Option.some.inj h
    exact ⟨[], es, rfl, hit_goto hhit hinst hcase, Or.inr ⟨rfl, hk⟩⟩
  | ban hl => exact absurd hinst (hban _ b hhit.present (by rw [hhard]; exact hb.ban))
  | dst => exact absurd htab.symm hsd
  | reserved => exact absurd htab.symm hsf
  | floodV => exact absurd htab.symm hsf
  | floodP => exact absurd htab.symm hsf

/-! ## Destinations -/

theorem dst_table (hw : c.WF) (hb : c.Basic) (hf : UFlows c K sw) (hn : ∀ sl, Needed c u sl → sw.flows sl ≠ none)
    (hto : k0.hdr fEthDst = some dst) (hst : Stage p k0 vid inner k) (hes : Proc sw c.td k es) :
    Proc sw c.tf k es ∨ ∃ q ∈ c.ports, q.In vid ∧ K dst ∧ es = (runInst sw (Learn.dstInst c.learn q.number vid) k).1 ∧
      ∃ b, sw.flows (Learn.dstSlot c.learn vid dst) = some b ∧ b.inst = Learn.dstInst c.learn q.number vid := by
  obtain ⟨hc0, hs0, hd0, hf0, hsd, hsf, hdf, hcd, hcf, hcs, hcs', -⟩ := hb.distinct
  obtain ⟨s, b, hhit, hle, hcase⟩ := proc_hit hes (hn _ .dst) rfl rfl
  have hr := hf s b hhit.present
  have htab := hhit.table
  have hhits := hhit.hits
  have hpres := hhit.present
  generalize hinst : b.inst = inst, b.hard = h1, b.idle = h2 at hr
  cases hr with
  | dVlan => exact absurd htab.symm hd0
  | dClass => exact absurd htab hcd
  | dSrc => exact absurd htab hsd
  | dDst => exact Or.inl (hit_goto hhit hinst hcase)
  | dFlood => exact absurd htab.symm hdf
  | dFib h => exact absurd htab (hb.fib h).dst
  | dVip h => exact absurd htab (hb.vip h).dst
  | untagged => exact absurd htab.symm hd0
  | tagged => exact absurd htab.symm hd0
  | untagMiss => exact absurd htab.symm hd0
  | lldp => exact absurd htab.symm hd0
  | outOnly => exact absurd htab.symm hd0
  | bcast => exact absurd htab hcd
  | ectp => exact absurd htab hcd
  | spoof => exact absurd htab hcd
  | unknown => exact absurd htab hsd
  | src => exact absurd htab hsd
  | ban hl => exact absurd htab hsd
  | @dst q v m _ _ hq hin hk =>
    have hv := stage_vid hst (in_small hw hq hin) hhits (by simp)
    subst hv
    have h := (hits_exact (f := fEthDst) (by decide) (by decide)).1 (hits_mem hhits (i := iEthDst m) (by simp))
    rw [hst.hdr _ (by decide), hto] at h
    obtain rfl := Option.some.inj h
    refine Or.inr ⟨q, hq, hin, hk, ?_, b, ?_, hinst⟩
    · have hnone : instGoto (Learn.dstInst c.learn q.number v) = none := by
        have : c.learn.egress = none := by show c.egressTo = none; simp [Cfg.egressTo, hb.noEgress]
        simp [Learn.dstInst, Learn.pipelineOutput, this, instGoto]
      rw [hinst] at hcase
      rcases hcase with ⟨-, h⟩ | ⟨m, es', h1, -⟩
      · exact h
      · rw [hnone] at h1; cases h1
    · have : Learn.dstSlot c.learn v dst = ⟨c.td, matchPriority, [iEthDst dst, iVlan v]⟩ := by
        unfold Learn.dstSlot; rw [hb.learnExt]; rfl
      rw [this]; exact hpres
  | reserved => exact absurd htab.symm hdf
  | floodV => exact absurd htab.symm hdf
  | floodP => exact absurd htab.symm hdf

/-! ## Flooding -/

/-- Every other member gets exactly one copy, the port itself none. -/
def Spread (c : Cfg) (p : LPort) (vid : Nat) (es : List Emit) : Prop :=
  copies p es = [] ∧ ∀ q ∈ c.ports, q.In vid → q ≠ p → ∃ e, copies q es = [e]

theorem spread_vlan (hw : c.WF) (hb : c.Basic) (d : Nat → Dyn) {v : LVlan} (hp : p ∈ c.ports) (hin : p.In v.vid)
    (hk : Flood.InVlan (c.fvlan d v) (fport d p) k) (eu : Bool) (g : Nat → Option (List (List Action))) :
    Spread c p v.vid (runActs g ((c.fvlan d v).vlanActs eu) k).1 := by
  obtain ⟨h1, -, h3, -⟩ := Flood.vlan_copies (fvlan_wf hw d v) (fvlan_ports_mem hp hin) (eu := eu) (ae := false) (er := true) hk g
  refine ⟨h3, ?_⟩
  intro q hq hqin hne
  obtain ⟨e, he, -⟩ := h1 (fport d q) (fvlan_ports_mem hq hqin) (fport_ne hw hp hq hne) (fport_member hb hq hqin eu) (fport_eligible hb hq _ _ _)
  exact ⟨e, he⟩

theorem spread_port (hw : c.WF) (hb : c.Basic) (d : Nat → Dyn) {v : LVlan} (hp : p ∈ c.ports) (hin : p.In v.vid)
    (hup : (d p.number).physUp = true) (hk : Flood.InVlan (c.fvlan d v) (fport d p) k) (eu er : Bool)
    (g : Nat → Option (List (List Action))) :
    Spread c p v.vid (runActs g ((c.fvlan d v).portActs eu (fport d p) false er).1 k).1 := by
  have h := Flood.port_flood_delivers (fvlan_wf hw d v) (fvlan_ports_mem hp hin) (show (fport d p).physUp = true from hup) eu false er hk g
  refine ⟨h.noReturn ?_, ?_⟩
  · rintro ⟨hh, -⟩
    have hh : p.hairpin = true := hh
    rw [(hb.hairpin p hp).1] at hh; cases hh
  · intro q hq hqin hne
    obtain ⟨e, he, -⟩ := h.due (fport d q) (fport_due hw hb hp hq hqin hne _ _ _)
    exact ⟨e, he⟩

theorem flood_hit (hw : c.WF) (hb : c.Basic) (hf : UFlows c K sw) (hp : p ∈ c.ports)
    (ho : Ordinary c p k0 vid inner src dst) (hst : Stage p k0 vid inner k) {s : Slot} {b : Body} (hhit : Hit sw c.tf k s b) :
    instGoto b.inst = none ∧
    ((s.priority = 0 ∧ (runInst sw b.inst k).1 = []) ∨ Spread c p vid (runInst sw b.inst k).1) := by
  obtain ⟨hc0, hs0, hd0, hf0, hsd, hsf, hdf, hcd, hcf, hcs, hcs', -⟩ := hb.distinct
  obtain ⟨pcp, htags⟩ := hst.tags
  have hr := hf s b hhit.present
  have htab := hhit.table
  have hhits := hhit.hits
  have hin := carried_in ho.carried
  have hkin : k.hdr fInPort = some p.number := by rw [hst.hdr _ (by decide)]; exact ho.port
  generalize b.inst = inst, b.hard = h1, b.idle = h2 at hr
  cases hr with
  | dVlan => exact absurd htab.symm hf0
  | dClass => exact absurd htab hcf
  | dSrc => exact absurd htab hsf
  | dDst => exact absurd htab hdf
  | dFlood => exact ⟨rfl, Or.inl ⟨rfl, rfl⟩⟩
  | dFib h => exact absurd htab (hb.fib h).flood
  | dVip h => exact absurd htab (hb.vip h).flood
  | untagged => exact absurd htab.symm hf0
  | tagged => exact absurd htab.symm hf0
  | untagMiss => exact absurd htab.symm hf0
  | lldp => exact absurd htab.symm hf0
  | outOnly => exact absurd htab.symm hf0
  | bcast => exact absurd htab hcf
  | ectp => exact absurd htab hcf
  | spoof => exact absurd htab hcf
  | unknown => exact absurd htab hsf
  | src => exact absurd htab hsf
  | ban => exact absurd htab hsf
  | dst => exact absurd htab hdf
  | @reserved d hd =>
    have h := hits_mem hhits (i := ⟨fEthDst, d.1, some d.2⟩) (by simp)
    rw [not_reserved ho (hst.hdr _ (by decide)) hd] at h; cases h
  | @floodV d v r hv hr hc =>
    refine ⟨goto_apply _, Or.inr ?_⟩
    have hvid : v.vid = vid := stage_vid hst (hw.vid v hv) hhits (by simp [Flood.Row.items, iVlan])
    subst hvid
    rw [Flood.floodRule_emits]
    exact spread_vlan hw hb d hp hin ⟨⟨pcp, inner, htags⟩, hkin⟩ _ _
  | @floodP d v r q hv hr hq hqin hup =>
    refine ⟨goto_apply _, Or.inr ?_⟩
    have hvid : v.vid = vid := stage_vid hst (hw.vid v hv) hhits (by simp [Flood.Row.items, iVlan])
    subst hvid
    have hqp : q = p := by
      have h := stage_in hst hhits (n := q.number) (row_in r v.vid q.number)
      rw [ho.port] at h
      exact port_inj hw hq hp (Option.some.inj h).symm
    subst hqp
    rw [Flood.floodRule_emits]
    exact spread_port hw hb d hp hin hup ⟨⟨pcp, inner, htags⟩, hkin⟩ _ _ _

theorem flood_row (c : Cfg) : (⟨true, none, none⟩ : Flood.Row) ∈ c.flood.rows := by
  unfold Flood.FCfg.rows
  split <;> simp [Flood.floodDsts]

theorem flood_table_u (hw : c.WF) (hb : c.Basic) (hf : UFlows c K sw) (hn : ∀ sl, Needed c u sl → sw.flows sl ≠ none) (hp : p ∈ c.ports)
    (ht : Takes u p) (ho : Ordinary c p k0 vid inner src dst) (hst : Stage p k0 vid inner k) (hes : Proc sw c.tf k es) :
    Spread c p vid es := by
  obtain ⟨v, hv, hvid⟩ := hw.known p hp vid (carried_in ho.carried)
  obtain ⟨pcp, htags⟩ := hst.tags
  subst hvid
  have hkin : k.hdr fInPort = some p.number := by rw [hst.hdr _ (by decide)]; exact ho.port
  have hrow : Flood.RowMatches ⟨true, none, none⟩ k := ⟨fun _ _ h => (by cases h), fun _ h => (by cases h)⟩
  have hneed : ∀ sl, Needed c u sl → sl.table = c.tf → 0 < sl.priority → hitsAll sl.items k = true → Spread c p v.vid es := by
    intro sl hsl h1 h2 h3
    obtain ⟨s, b, hhit, hle, hcase⟩ := proc_hit hes (hn sl hsl) h1 h3
    obtain ⟨h4, h5⟩ := flood_hit hw hb hf hp ho hst hhit
    rcases hcase with ⟨-, rfl⟩ | ⟨m, es', h6, -⟩
    · rcases h5 with ⟨h5, -⟩ | h5
      · omega
      · exact h5
    · rw [h4] at h6; cases h6
  cases hc : c.combinatorial with
  | false =>
    refine hneed _ (.floodV hv (flood_row c) hc) rfl (by show 0 < Flood.Row.priority _; decide) ?_
    exact (Flood.rowRule_hits (v := c.fvlan (fun _ => {}) v) (i := none) (hw.vid v hv) htags hst.small).2 ⟨(by intro n h; cases h), hrow, rfl⟩
  | true =>
    by_cases hq : ∃ q ∈ c.ports, q.In v.vid ∧ q ≠ p
    · obtain ⟨q, hq, hqin, hne⟩ := hq
      refine hneed _ (.floodP hv (flood_row c) hc hp ht.1 ht.2.2 (carried_in ho.carried) hq hqin hne) rfl
        (by show 0 < Flood.Row.priority _ + 1; omega) ?_
      exact (Flood.rowRule_hits (v := c.fvlan (fun _ => {}) v) (i := some p.number) (hw.vid v hv) htags hst.small).2
        ⟨(by intro n h; cases h; exact hkin), hrow, rfl⟩
    · have hnone : ∀ q ∈ c.ports, q.In v.vid → q ≠ p → ∃ e, copies q es = [e] := fun q hq' hin hne => absurd ⟨q, hq', hin, hne⟩ hq
      refine ⟨?_, hnone⟩
      cases hes with
      | miss _ => rfl
      | done hhit hg =>
        rcases (flood_hit hw hb hf hp ho hst hhit).2 with ⟨-, h⟩ | h
        · rw [h]; rfl
        · exact h.1
      | next hhit hg _ => rw [(flood_hit hw hb hf hp ho hst hhit).1] at hg; cases hg

/-! ## A known destination -/

theorem copies_append (q : LPort) (a b : List Emit) : copies q (a ++ b) = copies q a ++ copies q b := by simp [copies]

theorem copies_none {q : LPort} {es : List Emit} (h : ∀ e ∈ es, e.port ≠ q.number) : copies q es = [] := by
  unfold copies
  rw [List.filter_eq_nil_iff]
  intro e he
  simpa using h e he

/-- Members are not mirrors. -/
theorem mirror_not_member (hw : c.WF) (hp : p ∈ c.ports) {vid' : Nat} (hpin : p.In vid') {q : LPort} (hq : q ∈ c.ports) (hin : q.In vid) {n : Nat} (hn : n ∈ p.mirror) :
    n ≠ q.number := by
  intro h
  obtain ⟨h1, h2⟩ := (hw.mirrors p hp _ hpin n hn).2 q hq h.symm
  rcases hin with h | h
  · rw [h1] at h; cases h
  · rw [h2] at h; cases h

theorem output_runs (hb : c.Basic) (hw : c.WF) {q : LPort} (hq : q ∈ c.ports) :
    ∃ k', k'.hdr = k.hdr ∧ (runInst sw (Learn.dstInst c.learn q.number vid) k).1 = q.mirror.flatMap (emitPort k') ++ emitPort k' q.number := by
  have heg : c.learn.egress = none := by show c.egressTo = none; simp [Cfg.egressTo, hb.noEgress]
  have hext : c.learn.hasExternals = false := hb.noExternals
  have hmir : c.learn.mirror q.number = q.mirror := by
    show c.mirrors q.number = _
    unfold Cfg.mirrors
    rw [find_of_mem hw hq]
  have hrun : (runInst sw (Learn.dstInst c.learn q.number vid) k).1 = (runActs sw.groups (Learn.outputPort c.learn q.number vid false none) k).1 := by
    simp [Learn.dstInst, Learn.pipelineOutput, heg, hext, runInst, instActs]
  rw [hrun]
  unfold Learn.outputPort
  simp only [hmir]
  split
  · refine ⟨Action.popVlan.apply k, rfl, ?_⟩
    rw [List.append_assoc, List.singleton_append]
    simp only [runActs]
    rw [runActs_map_output]
    simp [runActs]
  · refine ⟨k, rfl, ?_⟩
    rw [List.append_assoc, runActs_map_output]
    simp [runActs]

theorem output_copies (hb : c.Basic) (hw : c.WF) {q : LPort} (hq : q ∈ c.ports) (hqin : q.In vid) (hp : p ∈ c.ports)
    (hk : k.hdr fInPort = some p.number) {r : LPort} (hr : r ∈ c.ports) (hin : r.In vid) :
    (r ≠ q → copies r (runInst sw (Learn.dstInst c.learn q.number vid) k).1 = []) ∧
    (r = q → r = p → copies r (runInst sw (Learn.dstInst c.learn q.number vid) k).1 = []) ∧
    (r = q → r ≠ p → ∃ e, copies r (runInst sw (Learn.dstInst c.learn q.number vid) k).1 = [e]) := by
  obtain ⟨k', h1, h2⟩ := output_runs (sw := sw) (k := k) (vid := vid) hb hw hq
  have hm : copies r (q.mirror.flatMap (emitPort k')) = [] := by
    apply copies_none
    intro e he
    obtain ⟨n, hn, he⟩ := List.mem_flatMap.1 he
    rw [(emit_real (hw.mirrors q hq _ hqin n hn).1 he).1]
    exact mirror_not_member hw hq hqin hr hin hn
  have hreal : q.number ≠ portInPort := by have := hw.real q hq; unfold RealPort at this; unfold portInPort; omega
  rw [h2, copies_append, hm, List.nil_append]
  refine ⟨?_, ?_, ?_⟩
  · intro hne
    apply copies_none
    intro e he
    rw [(emit_real (hw.real q hq) he).1]
    exact fun h => hne (port_inj hw hr hq h.symm)
  · rintro rfl rfl
    unfold emitPort
    rw [if_neg hreal, h1, hk, if_pos rfl]; rfl
  · rintro rfl hne
    unfold emitPort
    rw [if_neg hreal, h1, hk, if_neg]
    · exact ⟨⟨r.number, k'.tags, k'.hdr⟩, by simp [copies, h1]⟩
    · intro h
      exact hne (port_inj hw hr hp (Option.some.inj h).symm)

theorem dstInst_inj (hb : c.Basic) {a b vid : Nat} (h : Learn.dstInst c.learn a vid = Learn.dstInst c.learn b vid) : a = b := by
  have heg : c.learn.egress = none := by show c.egressTo = none; simp [Cfg.egressTo, hb.noEgress]
  have hext : c.learn.hasExternals = false := hb.noExternals
  have key : ∀ n, ∃ l, Learn.outputPort c.learn n vid false none = l ++ [.output n] := by
    intro n
    unfold Learn.outputPort
    simp only
    split
    · exact ⟨_, rfl⟩
    · exact ⟨_, rfl⟩
  simp only [Learn.dstInst, Learn.pipelineOutput, heg, hext] at h
  have h : Learn.outputPort c.learn a vid false none = Learn.outputPort c.learn b vid false none := by simpa using h
  obtain ⟨l1, h1⟩ := key a
  obtain ⟨l2, h2⟩ := key b
  rw [h1, h2] at h
  have := (List.append_inj' h rfl).2
  simpa using this

/-! ## Delivery -/

theorem carried_det {tags : List (Nat × Nat)} {v v' : Nat} {i i' : List (Nat × Nat)} (h : Carried p tags v i) (h' : Carried p tags v' i') :
    v = v' ∧ i = i' := by
  cases h with
  | untagged h =>
    cases h' with
    | untagged h' => rw [h] at h'; exact ⟨Option.some.inj h', rfl⟩
  | tagged h =>
    cases h' with
    | tagged h' => exact ⟨rfl, rfl⟩

/-- What leaves through a member is right. -/
theorem gets_one (hw : c.WF) (hgood : ∀ e ∈ es, SameContent k0 e ∧ Allowed c p k0 e) (hc : Carried p k0.tags vid inner)
    {q : LPort} (hq : q ∈ c.ports) (hin : q.In vid) (h : ∃ e, copies q es = [e]) : GetsOne q k0 vid inner es := by
  obtain ⟨e, he⟩ := h
  have hmem : e ∈ copies q es := by rw [he]; simp
  obtain ⟨hm, hport⟩ := List.mem_filter.1 hmem
  have hport : e.port = q.number := by simpa using hport
  obtain ⟨h1, h2⟩ := hgood e hm
  refine ⟨e, he, h1, ?_⟩
  have hctl : e.port ≠ portController := by
    have := hw.real q hq
    unfold RealPort at this
    rw [hport]; unfold portController; omega
  cases h2 with
  | control h => exact absurd h hctl
  | controller h => exact absurd h hctl
  | mirror _ hq' hin' hmir => exact absurd hport (mirror_not_member hw hq' hin' hq hin hmir)
  | member hc' hq' hn ht =>
    obtain ⟨rfl, rfl⟩ := carried_det hc hc'
    obtain rfl := port_inj hw hq' hq (hn.symm.trans hport)
    exact ht

theorem walk (hw : c.WF) (hb : c.Basic) {s : Sys} {u : Nat → Bool} (hi : DInv c u s) (hban : NoBan s.sw)
    (hp : p ∈ c.ports) (ht : Takes u p) (ho : Ordinary c p k0 vid inner src dst) (hes : Proc s.sw 0 k0 es) :
    (∃ e ∈ es, e.port = portController ∧ (Emit.toPacketIn e).src = src) ∨ s.Told src := by
  obtain ⟨es0, es1, k, rfl, -, hst, h2⟩ := first_table hw hb hi.flows hi.present hp ht ho hes
  have h3 := class_table hb hi.flows hi.present ho hst h2
  obtain ⟨es2, es3, rfl, -, h5⟩ := src_table hw hb hi.flows hi.present hban hp ho hst h3
  rcases h5 with rfl | ⟨-, h5⟩
  · left
    have hreal := hw.real p hp
    unfold RealPort at hreal
    have hin : k.hdr fInPort = some p.number := by rw [hst.hdr _ (by decide)]; exact ho.port
    have hem : emitPort k portController = [⟨portController, k.tags, k.hdr⟩] := by
      unfold emitPort
      rw [if_neg (by decide), hin, if_neg]
      simp only [Option.some.injEq]
      unfold portController; omega
    refine ⟨⟨portController, k.tags, k.hdr⟩, by simp [hem], rfl, ?_⟩
    show (k.hdr fEthSrc).getD 0 = src
    rw [hst.hdr _ (by decide), ho.from_]; rfl
  · exact Or.inr h5

theorem delivery_core (hw : c.WF) (hb : c.Basic) {s : Sys} {u : Nat → Bool}
    (hi : DInv c u s) (hban : NoBan s.sw) {p : LPort} (hp : p ∈ c.ports) (ht : Takes u p) {k : Pkt}
    {vid : Nat} {inner : List (Nat × Nat)} {src dst : Nat} (ho : Ordinary c p k vid inner src dst) {es : List Emit}
    (hes : Proc s.sw 0 k es) :
    Flooded c p k vid inner es ∨
    ∃ q ∈ c.ports, q.In vid ∧ s.Heard dst ∧ dst.testBit 40 = false ∧ Unicast c p q k vid inner es ∧ ∀ r, s.Knows vid dst r → r.number = q.number := by
  have hgood := isolation_u hw hb hi.flows hp ho.wire ho.port hes
  have hsmall := in_small hw hp (carried_in ho.carried)
  obtain ⟨es0, es1, k1, hes1, hmir, hst, h2⟩ := first_table hw hb hi.flows hi.present hp ht ho hes
  have h3 := class_table hb hi.flows hi.present ho hst h2
  obtain ⟨es2, es3, hes3, h4, h5⟩ := src_table hw hb hi.flows hi.present hban hp ho hst h3
  have hin : k1.hdr fInPort = some p.number := by rw [hst.hdr _ (by decide)]; exact ho.port
  have hcop : ∀ q ∈ c.ports, q.In vid → copies q es = copies q es3 := by
    intro q hq hqin
    rw [hes1, hes3, copies_append, copies_append, copies_none (es := es0), copies_none (es := es2)]
    · rfl
    · intro e he
      have hreal := hw.real q hq
      unfold RealPort at hreal
      rcases h5 with h5 | ⟨h5, -⟩
      · rw [h5] at he
        rw [(emit_ctrl he).1]; unfold portController; omega
      · rw [h5] at he; cases he
    · exact fun e he => mirror_not_member hw hp (carried_in ho.carried) hq hqin (hmir e he)
  have hone : ∀ q ∈ c.ports, q.In vid → (∃ e, copies q es3 = [e]) → GetsOne q k vid inner es := by
    intro q hq hqin he
    refine gets_one hw hgood ho.carried hq hqin ?_
    rw [hcop q hq hqin]; exact he
  rcases dst_table hw hb hi.flows hi.present ho.to_ hst h4 with h6 | ⟨q, hq, hqin, hk, hout, b, hbs, hbi⟩
  · left
    have h7 := flood_table_u hw hb hi.flows hi.present hp ht ho hst h6
    refine ⟨?_, fun q hq hqin hne => hone q hq hqin (h7.2 q hq hqin hne)⟩
    rw [hcop p hp (carried_in ho.carried)]; exact h7.1
  · right
    refine ⟨q, hq, hqin, hk.2, ?_, ⟨?_, ?_, ?_⟩, ?_⟩
    · have := hk.1
      unfold goodSource at this
      simp only [Bool.and_eq_true, Bool.not_eq_eq_eq_not, Bool.not_true] at this
      exact this.1
    · intro r hr hrin hne
      rw [hcop r hr hrin, hout]
      exact (output_copies hb hw hq hqin hp hin hr hrin).1 hne
    · rintro rfl
      rw [hcop q hq hqin, hout]
      exact (output_copies hb hw hq hqin hp hin hq hqin).2.1 rfl rfl
    · intro hne
      refine hone q hq hqin ?_
      rw [hout]
      exact (output_copies hb hw hq hqin hp hin hq hqin).2.2 rfl hne
    · rintro r ⟨e, he, hen⟩
      obtain ⟨j, hj, hsp⟩ := hi.dst vid dst e b hsmall he hbs
      rw [hbi] at hj
      have hjq := dstInst_inj hb hj
      rw [← hen, hjq]
      rcases hsp with h | ⟨h, -⟩
      · exact h.symm
      · exact absurd (hostPort_plain hb j).2.2.1 h

/-- **C63.** On a standalone switch, every ordinary packet that comes in through a port that takes packets is delivered: every
other member of its VLAN gets exactly one copy, or only one member does, and then FAUCET had heard of the destination, a unicast
address, and if FAUCET knows where it is, it is there. Copies have the content of the packet and the right tags, and none goes
back.
Partial: the configurations of `Cfg.Basic`; no tagged LACP or LLDP frames for FAUCET; as long as no source address is banned
because of a host limit; not modelled are stacking, ACLs, routing, 802.1x, tunnels, coprocessors and changes of the
configuration. -/
theorem delivery_partial {c : Cfg} (hw : c.WF) (hb : c.Basic) {s : Sys} {u : Nat → Bool}
    (hrun : Run c (fun k => Wire k ∧ Plain c k) s u) (hban : NoBan s.sw) {p : LPort} (hp : p ∈ c.ports) (ht : Takes u p) {k : Pkt}
    {vid : Nat} {inner : List (Nat × Nat)} {src dst : Nat} (ho : Ordinary c p k vid inner src dst) {es : List Emit}
    (hes : Proc s.sw 0 k es) :
    Flooded c p k vid inner es ∨
    ∃ q ∈ c.ports, q.In vid ∧ s.Heard dst ∧ dst.testBit 40 = false ∧ Unicast c p q k vid inner es ∧ ∀ r, s.Knows vid dst r → r.number = q.number :=
  delivery_core hw hb (run_inv hw hb hrun) hban hp ht ho hes

/-- **C63.** A host that FAUCET knows gets packets for it, wherever else they go. -/
theorem known_host_gets_partial {c : Cfg} (hw : c.WF) (hb : c.Basic) {s : Sys} {u : Nat → Bool}
    (hrun : Run c (fun k => Wire k ∧ Plain c k) s u) (hban : NoBan s.sw) {p : LPort} (hp : p ∈ c.ports) (ht : Takes u p) {k : Pkt}
    {vid : Nat} {inner : List (Nat × Nat)} {src dst : Nat} (ho : Ordinary c p k vid inner src dst) {es : List Emit}
    (hes : Proc s.sw 0 k es) {q : LPort} (hq : q ∈ c.ports) (hk : s.Knows vid dst q) (hne : q ≠ p) : GetsOne q k vid inner es := by
  obtain ⟨e, he, hen⟩ := hk
  obtain ⟨q', hq', hn, hin⟩ := (reach_inv hw hrun.reach).hosts vid dst e he
  obtain rfl := port_inj hw hq' hq (hn.trans hen)
  rcases delivery_partial hw hb hrun hban hp ht ho hes with h | ⟨r, hr, -, -, -, hu, hkn⟩
  · exact h.2 q' hq hin hne
  · obtain rfl := port_inj hw hq hr (hkn q' ⟨e, he, hen⟩)
    exact hu.2.2 hne

/-- **C63.** Broadcast and multicast packets, and packets for an address that FAUCET never heard of, go to every other member of
the VLAN. -/
theorem unknown_is_flooded_partial {c : Cfg} (hw : c.WF) (hb : c.Basic) {s : Sys} {u : Nat → Bool}
    (hrun : Run c (fun k => Wire k ∧ Plain c k) s u) (hban : NoBan s.sw) {p : LPort} (hp : p ∈ c.ports) (ht : Takes u p) {k : Pkt}
    {vid : Nat} {inner : List (Nat × Nat)} {src dst : Nat} (ho : Ordinary c p k vid inner src dst) {es : List Emit}
    (hes : Proc s.sw 0 k es) (hd : dst.testBit 40 = true ∨ ¬ s.Heard dst) : Flooded c p k vid inner es := by
  rcases delivery_partial hw hb hrun hban hp ht ho hes with h | ⟨q, -, -, h1, h2, -⟩
  · exact h
  · rcases hd with h | h
    · rw [h2] at h; cases h
    · exact absurd h1 h

/-- **C63.** No packet goes back to where it came from. -/
theorem no_return_partial {c : Cfg} (hw : c.WF) (hb : c.Basic) {s : Sys} {u : Nat → Bool}
    (hrun : Run c (fun k => Wire k ∧ Plain c k) s u) (hban : NoBan s.sw) {p : LPort} (hp : p ∈ c.ports) (ht : Takes u p) {k : Pkt}
    {vid : Nat} {inner : List (Nat × Nat)} {src dst : Nat} (ho : Ordinary c p k vid inner src dst) {es : List Emit}
    (hes : Proc s.sw 0 k es) : copies p es = [] := by
  rcases delivery_partial hw hb hrun hban hp ht ho hes with h | ⟨q, -, -, -, -, hu, -⟩
  · exact h.1
  · by_cases hqp : q = p
    · exact hu.2.1 hqp
    · exact hu.1 p hp (carried_in ho.carried) (fun h => hqp h.symm)

/-- **C63.** FAUCET is told of every source address it has not heard of. -/
theorem new_source_told_partial {c : Cfg} (hw : c.WF) (hb : c.Basic) {s : Sys} {u : Nat → Bool}
    (hrun : Run c (fun k => Wire k ∧ Plain c k) s u) (hban : NoBan s.sw) {p : LPort} (hp : p ∈ c.ports) (ht : Takes u p) {k : Pkt}
    {vid : Nat} {inner : List (Nat × Nat)} {src dst : Nat} (ho : Ordinary c p k vid inner src dst) {es : List Emit}
    (hes : Proc s.sw 0 k es) (hnew : ¬ s.Heard src) : ∃ e ∈ es, e.port = portController ∧ (Emit.toPacketIn e).src = src := by
  rcases walk hw hb (run_inv hw hb hrun) hban hp ht ho hes with h | h
  · exact h
  · exact absurd h.2 hnew

/-- **C63.** Without host limits no source address is ever banned. -/
theorem unlimited_never_bans {c : Cfg} (hw : c.WF) (hb : c.Basic) (hl : c.Unlimited) {s : Sys} {u : Nat → Bool}
    (hrun : Run c (fun k => Wire k ∧ Plain c k) s u) : NoBan s.sw := by
  intro sl b hsb hh
  have hr := (run_inv hw hb hrun).flows sl b hsb
  generalize b.inst = inst, b.hard = h1, b.idle = h2 at hr hh
  cases hr with
  | src => simp
  | ban h => exact absurd hl h
  | dst =>
    unfold Learn.dstInst Learn.pipelineOutput
    split <;> simp
  | _ => exact absurd rfl hh

end Faucet.L2
