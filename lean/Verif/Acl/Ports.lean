import Verif.Acl.Slices

/-!
# C14: ACLs of ports and VLANs over the life of a switch
-/

namespace Faucet.Acl
open Faucet.OF Faucet.FlowReorder

theorem keys_port : Keys inPortItem := by
  refine ⟨fun _ => rfl, ?_⟩
  intro p n m h1 h2
  have h1 := (hits_exact (by decide) (by decide)).1 h1
  have h2 := (hits_exact (by decide) (by decide)).1 h2
  rw [h1] at h2
  injection h2

theorem port_hits {n : Nat} {p : Pkt} : (inPortItem n).hits p = true ↔ p.hdr fInPort = some n :=
  hits_exact (by decide) (by decide)

theorem vid_hits {v : Nat} {p : Pkt} : (vidItem v).hits p = true ↔ p.field fVlanVid = some (vidPresent v) := by
  unfold MatchItem.hits vidItem
  simp only
  cases p.field fVlanVid <;> simp [maskEq]

theorem flowdel_kills {t : Table} {i : MatchItem} (hi : i.mask = none) {prio : Nat} {s : Slot} {b : Body} :
    (t.flowdel [i] prio).kills s b = true ↔ (t.id = tableAll ∨ t.id = s.table) ∧ i ∈ s.items := by
  simp only [Table.flowdel, OfMsg.kills, FlowMod.kills, FlowMod.tableOk, FlowMod.outPortOk, coversItems, List.all_cons,
    List.all_nil, Bool.and_true, Bool.false_eq_true, if_false, Bool.and_eq_true, Bool.or_eq_true, beq_iff_eq,
    List.any_eq_true]
  constructor
  · rintro ⟨h1, x, hx, hc⟩
    rw [covers_exact hi hc] at hx
    exact ⟨h1, hx⟩
  · rintro ⟨h1, h2⟩
    exact ⟨h1, i, h2, covers_self i hi⟩

/-! ## Ports -/

/-- What a port's configuration must be like for the theorem: 802.1X, which has flows of its own in the table, is not
modelled. -/
structure PortOk (p : Port) : Prop where
  acls : p.aclsIn ≠ [] → AclsOk p.aclsIn
  noDot1x : p.dot1x = false

abbrev PortCfg := Nat → Option Port

def setPort (cfg : PortCfg) (n : Nat) (p : Option Port) : PortCfg := fun k => if k = n then p else cfg k

/-- The messages the ACL manager sends during the life of a switch: a port comes up (it had no ACL flows, or those of the
same configuration: `ports_add`, `faucet/valve.py` 845-885); its ACLs change (`cold_start_port`, `faucet/valve.py` 1671);
it goes down (`_port_delete_flows_state`, `faucet/valve.py` 837). Each batch is sent with deletions first. -/
inductive PortStep (enc : Enc) (m : Mgr) : Switch × PortCfg → Switch × PortCfg → Prop
  | up {sw cfg p ms} : PortOk p → (cfg p.number = none ∨ cfg p.number = some p) → addPort enc m p = some ms →
      PortStep enc m (sw, cfg) (sw.execAll (deletesFirst ms), setPort cfg p.number (some p))
  | acl {sw cfg p ms} : PortOk p → p.outputOnly = false → coldStartPort enc m p = some ms →
      PortStep enc m (sw, cfg) (sw.execAll (deletesFirst ms), setPort cfg p.number (some p))
  | down {sw cfg p} : cfg p.number = some p →
      PortStep enc m (sw, cfg) (sw.execAll (deletesFirst (delPort m p)), setPort cfg p.number none)

inductive PortRun (enc : Enc) (m : Mgr) : Switch × PortCfg → Switch × PortCfg → Prop
  | refl {x} : PortRun enc m x x
  | step {x y z} : PortRun enc m x y → PortStep enc m y z → PortRun enc m x z

/-- The flows for a port. -/
def portFlows (enc : Enc) (m : Mgr) (p : Option Port) : List FlowMod :=
  match p with
  | some p => flowsOf ((addPort enc m p).getD [])
  | none => []

theorem portFlows_good {enc : Enc} (he : EncOk enc) (m : Mgr) (t : Table) (hm : m.portTable = some t) (p : Port)
    (hok : PortOk p) (ms : List OfMsg) (h : addPort enc m p = some ms) :
    GoodFlows t.id inPortItem p.number (flowsOf ms) ∧ ∀ x ∈ ms, ∃ f, x = .flow f ∧ f.cmd = .add := by
  have hnil : GoodFlows t.id inPortItem p.number (flowsOf []) ∧
      ∀ x ∈ ([] : List OfMsg), ∃ f, x = .flow f ∧ f.cmd = .add :=
    ⟨⟨by simp [flowsOf], by simp [flowsOf], by simp [flowsOf], by simp [flowsOf], by simp [flowsOf]⟩, by simp⟩
  unfold addPort at h
  cases ha : portAclsAllowed m p with
  | none => rw [ha] at h; injection h with h; subst h; exact hnil
  | some t' =>
    have ht : t' = t := by
      unfold portAclsAllowed at ha
      split at ha
      · rw [hm] at ha; injection ha with ha; exact ha.symm
      · cases ha
    subst ht
    rw [ha] at h
    simp only at h
    by_cases hc : p.aclsIn ≠ []
    · rw [if_pos hc] at h
      have hok' := hok.acls hc
      exact buildAcls_good (portCtx m t' p) hok'.inOrder rfl p.aclsIn hok' inPortItem p.number
        (fun r hr items hi => port_item_mem he _ p.number rfl rfl r (hok'.unamb r hr) items hi) ms h rfl rfl
    · rw [if_neg hc, hok.noDot1x] at h
      simp only [Bool.not_false, if_true] at h
      injection h with h
      subst h
      refine ⟨⟨?_, ?_, ?_, ?_, ?_⟩, ?_⟩
      · intro f hf; simp [flowsOf, Table.flowadd] at hf; subst hf; rfl
      · intro f hf; simp [flowsOf, Table.flowadd] at hf; subst hf; rfl
      · intro f hf; simp [flowsOf, Table.flowadd] at hf; subst hf; simp
      · intro f hf; simp [flowsOf, Table.flowadd] at hf; subst hf; exact (by decide : 0 < aclPriority)
      · intro f hf g hg _
        simp [flowsOf, Table.flowadd] at hf hg
        subst hf hg; rfl
      · intro x hx
        simp only [List.mem_singleton] at hx
        exact ⟨_, hx, rfl⟩

theorem adds_only {ms : List OfMsg} (h : ∀ x ∈ ms, ∃ f, x = .flow f ∧ f.cmd = .add) :
    PlainAdds ms ∧ ∀ s b, ¬ Killed ms s b := by
  refine ⟨?_, ?_⟩
  · intro f hf
    obtain ⟨g, h1, h2⟩ := h _ hf
    injection h1 with h1
    subst h1
    rw [h2]
    decide
  · rintro s b ⟨x, hx, hd, _⟩
    obtain ⟨g, rfl, h2⟩ := h _ hx
    simp [isDeletion, h2] at hd

theorem mem_delPort {m : Mgr} {p : Port} {x : OfMsg} (h : x ∈ delPort m p) :
    ∃ t, m.portTable = some t ∧ x = t.flowdel [inPortItem p.number] aclPriority := by
  unfold delPort at h
  cases ha : portAclsAllowed m p with
  | none => rw [ha] at h; cases h
  | some t =>
    rw [ha] at h
    simp only [List.mem_singleton] at h
    unfold portAclsAllowed at ha
    split at ha
    · exact ⟨t, ha, h⟩
    · cases ha

theorem setCfg_port (enc : Enc) (m : Mgr) (cfg : PortCfg) (n : Nat) (p : Option Port) :
    (fun k => portFlows enc m (setPort cfg n p k)) = setCfg (fun k => portFlows enc m (cfg k)) n (portFlows enc m p) := by
  funext k
  unfold setPort setCfg
  split <;> rfl

theorem port_step_sliced {enc : Enc} (he : EncOk enc) (m : Mgr) (t : Table) (hm : m.portTable = some t)
    {x y : Switch × PortCfg} (hst : PortStep enc m x y) (hs : Sliced t.id inPortItem (fun n => portFlows enc m (x.2 n)) x.1) :
    Sliced t.id inPortItem (fun n => portFlows enc m (y.2 n)) y.1 := by
  cases hst with
  | @up sw cfg p ms hok hc ha =>
    obtain ⟨hg, hadd⟩ := portFlows_good he m t hm p hok ms ha
    obtain ⟨h1, h2⟩ := adds_only hadd
    have hpf : portFlows enc m (some p) = flowsOf ms := by simp [portFlows, ha]
    rw [setCfg_port, hpf]
    refine sliced_step keys_port hs p.number (flowsOf ms) hg ms h1 (fun f hf => mem_flowsOf.1 hf)
      (fun f hf _ _ => mem_flowsOf.2 hf) (fun s b _ hk => absurd hk (h2 s b)) (Or.inr ?_)
    rcases hc with hc | hc
    · left; simp only [hc]; rfl
    · right; simp only [hc]; exact hpf
  | @acl sw cfg p ms hok ho ha =>
    unfold coldStartPort at ha
    obtain ⟨as, ha', rfl⟩ := Option.map_eq_some_iff.1 ha
    clear ha
    have ha := ha'
    obtain ⟨hg, hadd⟩ := portFlows_good he m t hm p hok as ha
    obtain ⟨h1, h2⟩ := adds_only hadd
    have hpf : portFlows enc m (some p) = flowsOf as := by simp [portFlows, ha]
    rw [setCfg_port, hpf]
    refine sliced_step keys_port hs p.number (flowsOf as) hg _ ?_ (fun f hf => List.mem_append_right _ (mem_flowsOf.1 hf)) ?_ ?_ ?_
    · intro f hf
      rcases List.mem_append.1 hf with hf | hf
      · obtain ⟨t', _, hx⟩ := mem_delPort hf
        simp only [Table.flowdel, OfMsg.flow.injEq] at hx
        rw [hx]
        simp
      · exact h1 f hf
    · intro f hf hcmd _
      rcases List.mem_append.1 hf with hf | hf
      · obtain ⟨t', _, hx⟩ := mem_delPort hf
        simp only [Table.flowdel, OfMsg.flow.injEq] at hx
        rw [hx] at hcmd
        simp at hcmd
      · exact mem_flowsOf.2 hf
    · rintro s b ht ⟨x, hx, hd, hk⟩
      rcases List.mem_append.1 hx with hx | hx
      · obtain ⟨t', _, hx⟩ := mem_delPort hx
        rw [hx] at hk
        exact ((flowdel_kills rfl).1 hk).2
      · exact absurd ⟨x, hx, hd, hk⟩ (h2 s b)
    · by_cases hdp : m.dpAcls = []
      · left
        intro s b ht hi
        refine ⟨t.flowdel [inPortItem p.number] aclPriority, ?_, rfl, (flowdel_kills rfl).2 ⟨Or.inr ht.symm, hi⟩⟩
        apply List.mem_append_left
        unfold delPort portAclsAllowed
        rw [hdp, ho, hm]
        simp
      · right; left
        -- with ACLs for the whole switch no port has flows
        have : ∀ q, portFlows enc m q = [] := by
          intro q
          cases q with
          | none => rfl
          | some q =>
            have : portAclsAllowed m q = none := by
              unfold portAclsAllowed
              cases hm' : m.dpAcls with
              | nil => exact absurd hm' hdp
              | cons => rfl
            simp [portFlows, addPort, this, flowsOf]
        exact this _
  | @down sw cfg p hc =>
    rw [setCfg_port]
    have hpf : portFlows enc m none = [] := rfl
    rw [hpf]
    refine sliced_step keys_port hs p.number [] ⟨by simp, by simp, by simp, by simp, by simp⟩ _ ?_ (by simp) ?_ ?_ ?_
    · intro f hf
      obtain ⟨t', _, hx⟩ := mem_delPort hf
      simp only [Table.flowdel, OfMsg.flow.injEq] at hx
      rw [hx]
      simp
    · intro f hf hcmd _
      obtain ⟨t', _, hx⟩ := mem_delPort hf
      simp only [Table.flowdel, OfMsg.flow.injEq] at hx
      rw [hx] at hcmd
      simp at hcmd
    · rintro s b ht ⟨x, hx, hd, hk⟩
      obtain ⟨t', _, hx⟩ := mem_delPort hx
      rw [hx] at hk
      exact ((flowdel_kills rfl).1 hk).2
    · cases ha : portAclsAllowed m p with
      | none =>
        right; left
        simp only [hc]
        simp [portFlows, addPort, ha, flowsOf]
      | some t' =>
        have ht' : t' = t := by
          unfold portAclsAllowed at ha
          split at ha
          · rw [hm] at ha; injection ha with ha; exact ha.symm
          · cases ha
        subst ht'
        left
        intro s b ht hi
        refine ⟨t'.flowdel [inPortItem p.number] aclPriority, ?_, rfl, (flowdel_kills rfl).2 ⟨Or.inr ht.symm, hi⟩⟩
        unfold delPort
        rw [ha]
        simp

theorem port_run_sliced {enc : Enc} (he : EncOk enc) (m : Mgr) (t : Table) (hm : m.portTable = some t)
    {x y : Switch × PortCfg} (hr : PortRun enc m x y) (hs : Sliced t.id inPortItem (fun n => portFlows enc m (x.2 n)) x.1) :
    Sliced t.id inPortItem (fun n => portFlows enc m (y.2 n)) y.1 := by
  induction hr with
  | refl => exact hs
  | step _ hst ih => exact port_step_sliced he m t hm hst ih

/-- Every port that is up has a configuration that is as required. -/
theorem port_run_ok {enc : Enc} {m : Mgr} {x y : Switch × PortCfg} (hr : PortRun enc m x y)
    (hx : ∀ n p, x.2 n = some p → PortOk p ∧ p.number = n ∧ (addPort enc m p).isSome) :
    ∀ n p, y.2 n = some p → PortOk p ∧ p.number = n ∧ (addPort enc m p).isSome := by
  induction hr with
  | refl => exact hx
  | step _ hst ih =>
    have hset : ∀ (cfg : PortCfg) (q : Port) (o : Option Port), (∀ n p, cfg n = some p → PortOk p ∧ p.number = n ∧ (addPort enc m p).isSome) →
        (∀ p, o = some p → PortOk p ∧ p.number = q.number ∧ (addPort enc m p).isSome) →
        ∀ n p, setPort cfg q.number o n = some p → PortOk p ∧ p.number = n ∧ (addPort enc m p).isSome := by
      intro cfg q o h1 h2 n p hp
      unfold setPort at hp
      split at hp
      · rename_i hn; subst hn; exact h2 p hp
      · exact h1 n p hp
    cases hst with
    | @up sw cfg p ms hok hc ha =>
      exact hset cfg p _ ih (fun q hq => by injection hq with hq; subst hq; exact ⟨hok, rfl, by rw [ha]; rfl⟩)
    | @acl sw cfg p ms hok ho ha =>
      unfold coldStartPort at ha
      obtain ⟨as, ha', rfl⟩ := Option.map_eq_some_iff.1 ha
      clear ha
      have ha := ha'
      exact hset cfg p _ ih (fun q hq => by injection hq with hq; subst hq; exact ⟨hok, rfl, by rw [ha]; rfl⟩)
    | @down sw cfg p hc =>
      exact hset cfg p _ ih (fun q hq => by cases hq)

/-- **C14 (ports).** A switch starts with nothing but the default drop in the port ACL table. Then ports come up, change
their ACLs and go down, any number of times in any order. At any time, whatever flows the switch picks, a packet that
came in through port `n`:
* is dropped if the port is not up;
* goes on to the VLAN table unchanged if the port has no ACLs;
* otherwise is treated as the first rule it meets says, in the order of the port's ACLs and of the rules in them;
* and is dropped if it meets none. -/
theorem port_acl_decides {enc : Enc} (he : EncOk enc) (m : Mgr) (t : Table) (hm : m.portTable = some t) (hdp : m.dpAcls = [])
    (sw0 sw : Switch) (cfg : PortCfg)
    (h0 : ∀ s b, sw0.flows s = some b → s.table = t.id → s.priority = 0 ∧ b.inst = [])
    (hr : PortRun enc m (sw0, fun _ => none) (sw, cfg)) (n : Nat) (p : Pkt) (hp : p.hdr fInPort = some n)
    (es : List Emit) (hproc : Proc sw t.id p es) :
    (cfg n = none → es = []) ∧
    ∀ q, cfg n = some q → q.outputOnly = false →
      (q.aclsIn = [] → Proc sw m.toVlan p es) ∧
      (q.aclsIn ≠ [] →
        (∀ r, FirstMatch enc (some n) none (allRules q.aclsIn) r p →
          (r.actions = none → es = []) ∧
          ∀ a, r.actions = some a → Direct a → Does sw m.toVlan m.toL2 a p es) ∧
        ((∀ r ∈ allRules q.aclsIn, ¬ Meets enc (some n) none r p) → es = [])) := by
  have hs := port_run_sliced he m t hm hr (sliced_init h0)
  have hok := port_run_ok hr (by intro n p h; cases h)
  simp only at hs
  have hn : (inPortItem n).hits p = true := port_hits.2 hp
  refine ⟨?_, ?_⟩
  · intro hc
    exact slice_empty hs n (by simp only [hc]; rfl) p hn es hproc
  · intro q hq ho
    obtain ⟨hqok, hqn, hsome⟩ := hok n q hq
    obtain ⟨ms, hms⟩ := Option.isSome_iff_exists.1 hsome
    have hallow : portAclsAllowed m q = some t := by
      unfold portAclsAllowed
      rw [hdp, ho, hm]
      rfl
    have hcfg : portFlows enc m (cfg n) = flowsOf ms := by simp [portFlows, hq, hms]
    unfold addPort at hms
    rw [hallow] at hms
    simp only at hms
    refine ⟨?_, ?_⟩
    · intro hnil
      rw [if_neg (by simp [hnil]), hqok.noDot1x] at hms
      simp only [Bool.not_false, if_true] at hms
      injection hms with hms
      subst hms
      refine slice_pass hs n _ m.toVlan ?_ ?_ hcfg p hn es hproc
      · rfl
      · rw [hqn]
    · intro hacl
      rw [if_pos hacl] at hms
      have hok' := hqok.acls hacl
      have := slice_decides he (portCtx m t q) hok'.inOrder rfl q.aclsIn hok' inPortItem n ms hms
        (fun k => portFlows enc m (cfg k)) hcfg sw hs p hn es hproc
      have hpv : (portCtx m t q).port = some n := by rw [← hqn]; rfl
      rw [hpv] at this
      exact this

/-! ## VLANs -/

/-- The match on a VLAN. -/
def vlanKey (v : Nat) : MatchItem := ⟨fVlanVid, 4096 + v, none⟩

theorem vlanKey_eq {v : Nat} (h : v < 4096) : vlanKey v = vidItem v := by
  unfold vlanKey vidItem
  rw [(Encoding.vid_present_roundtrip h).2.1, Nat.add_comm]

theorem keys_vid : Keys vlanKey := by
  refine ⟨fun _ => rfl, ?_⟩
  intro p n m h1 h2
  unfold MatchItem.hits vlanKey at h1 h2
  simp only at h1 h2
  cases hf : p.field fVlanVid with
  | none => rw [hf] at h1; cases h1
  | some x =>
    rw [hf] at h1 h2
    simp only [maskEq, beq_iff_eq] at h1 h2
    omega

structure VlanOk (v : Vlan) : Prop where
  vid : v.vid < 4096
  aclsIn : v.aclsIn ≠ [] → AclsOk v.aclsIn
  aclsOut : v.aclsOut ≠ [] → AclsOk v.aclsOut

abbrev VlanCfg := Nat → Option Vlan

def setVlan (cfg : VlanCfg) (n : Nat) (v : Option Vlan) : VlanCfg := fun k => if k = n then v else cfg k

/-- The messages the ACL manager sends for VLANs: a VLAN is added (also when a port of it is added and the VLAN was there
already: `add_vlans`, `faucet/valve.py` 443-450), deleted (`del_vlan`), or replaced by one with another configuration. -/
inductive VlanStep (enc : Enc) (m : Mgr) : Switch × VlanCfg → Switch × VlanCfg → Prop
  | add {sw cfg v ms} : VlanOk v → (cfg v.vid = none ∨ cfg v.vid = some v) → addVlan enc m v = some ms →
      VlanStep enc m (sw, cfg) (sw.execAll (deletesFirst ms), setVlan cfg v.vid (some v))
  | replace {sw cfg v ms} : VlanOk v → addVlan enc m v = some ms →
      VlanStep enc m (sw, cfg) (sw.execAll (deletesFirst (delVlan m v ++ ms)), setVlan cfg v.vid (some v))
  | del {sw cfg v} : v.vid < 4096 →
      VlanStep enc m (sw, cfg) (sw.execAll (deletesFirst (delVlan m v)), setVlan cfg v.vid none)

inductive VlanRun (enc : Enc) (m : Mgr) : Switch × VlanCfg → Switch × VlanCfg → Prop
  | refl {x} : VlanRun enc m x x
  | step {x y z} : VlanRun enc m x y → VlanStep enc m y z → VlanRun enc m x z

/-- Either direction: the table, the messages for it, and the other messages. -/
structure Side (enc : Enc) (m : Mgr) where
  table : Table
  msgs : Vlan → Option (List OfMsg)
  good : ∀ v, VlanOk v → ∀ ms, msgs v = some ms →
    GoodFlows table.id vlanKey v.vid (flowsOf ms) ∧ ∀ x ∈ ms, ∃ f, x = .flow f ∧ f.cmd = .add
  split : ∀ v, VlanOk v → ∀ ms, addVlan enc m v = some ms → ∃ a, msgs v = some a ∧ (∀ x ∈ a, x ∈ ms) ∧
    (∀ x ∈ ms, ∃ f, x = .flow f ∧ f.cmd = .add ∧ (f.table = table.id → x ∈ a))
  dels : ∀ v, table.flowdel [vidItem v] ∈ delVlan m ⟨v, [], []⟩

def vlanFlows {enc : Enc} {m : Mgr} (sd : Side enc m) (v : Option Vlan) : List FlowMod :=
  match v with
  | some v => flowsOf ((sd.msgs v).getD [])
  | none => []

theorem setCfg_vlan {enc : Enc} {m : Mgr} (sd : Side enc m) (cfg : VlanCfg) (n : Nat) (v : Option Vlan) :
    (fun k => vlanFlows sd (setVlan cfg n v k)) = setCfg (fun k => vlanFlows sd (cfg k)) n (vlanFlows sd v) := by
  funext k
  unfold setVlan setCfg
  split <;> rfl

theorem mem_delVlan {m : Mgr} {v : Vlan} {x : OfMsg} (h : x ∈ delVlan m v) : ∃ t : Table, x = t.flowdel [vidItem v.vid] := by
  unfold delVlan at h
  obtain ⟨t, _, rfl⟩ := List.mem_map.1 h
  exact ⟨t, rfl⟩

theorem dels_vlan {enc : Enc} {m : Mgr} (sd : Side enc m) (v : Vlan) (hv : v.vid < 4096) (rest : List OfMsg) :
    (∀ s b, s.table = sd.table.id → vlanKey v.vid ∈ s.items → Killed (delVlan m v ++ rest) s b) := by
  intro s b ht hi
  refine ⟨sd.table.flowdel [vidItem v.vid], List.mem_append_left _ (sd.dels v.vid), rfl,
    (flowdel_kills rfl).2 ⟨Or.inr ht.symm, by rw [← vlanKey_eq hv]; exact hi⟩⟩

theorem vlan_step_sliced {enc : Enc} {m : Mgr} (sd : Side enc m) {x y : Switch × VlanCfg} (hst : VlanStep enc m x y)
    (hs : Sliced sd.table.id vlanKey (fun n => vlanFlows sd (x.2 n)) x.1) :
    Sliced sd.table.id vlanKey (fun n => vlanFlows sd (y.2 n)) y.1 := by
  have hdels : ∀ v : Vlan, v.vid < 4096 → ∀ (as : List OfMsg), (∀ s b, ¬ Killed as s b) → ∀ s b,
      Killed (delVlan m v ++ as) s b → vlanKey v.vid ∈ s.items := by
    rintro v hv as has s b ⟨x, hx, hd, hk⟩
    rcases List.mem_append.1 hx with hx | hx
    · obtain ⟨t, rfl⟩ := mem_delVlan hx
      rw [vlanKey_eq hv]
      exact ((flowdel_kills rfl).1 hk).2
    · exact absurd ⟨x, hx, hd, hk⟩ (has s b)
  have hnadd : ∀ (v : Vlan) f, OfMsg.flow f ∈ delVlan m v → f.cmd = .delete := by
    intro v f hf
    obtain ⟨t, hx⟩ := mem_delVlan hf
    simp only [Table.flowdel, OfMsg.flow.injEq] at hx
    rw [hx]
    simp
  cases hst with
  | @add sw cfg v ms hok hc ha =>
    obtain ⟨a, ha1, ha2, ha3⟩ := sd.split v hok ms ha
    obtain ⟨hg, hadd⟩ := sd.good v hok a ha1
    have hall : ∀ x ∈ ms, ∃ f, x = .flow f ∧ f.cmd = .add := fun x hx => by
      obtain ⟨f, h1, h2, _⟩ := ha3 x hx; exact ⟨f, h1, h2⟩
    obtain ⟨h1, h2⟩ := adds_only hall
    have hpf : vlanFlows sd (some v) = flowsOf a := by simp [vlanFlows, ha1]
    rw [setCfg_vlan, hpf]
    refine sliced_step keys_vid hs v.vid (flowsOf a) hg ms h1 (fun f hf => ha2 _ (mem_flowsOf.1 hf)) ?_
      (fun s b _ hk => absurd hk (h2 s b)) (Or.inr ?_)
    · intro f hf _ ht
      obtain ⟨f', e1, _, e3⟩ := ha3 _ hf
      injection e1 with e1
      subst e1
      exact mem_flowsOf.2 (e3 ht)
    · rcases hc with hc | hc
      · left; simp only [hc]; rfl
      · right; simp only [hc]; exact hpf
  | @replace sw cfg v ms hok ha =>
    obtain ⟨a, ha1, ha2, ha3⟩ := sd.split v hok ms ha
    obtain ⟨hg, hadd⟩ := sd.good v hok a ha1
    have hall : ∀ x ∈ ms, ∃ f, x = .flow f ∧ f.cmd = .add := fun x hx => by
      obtain ⟨f, h1, h2, _⟩ := ha3 x hx; exact ⟨f, h1, h2⟩
    obtain ⟨h1, h2⟩ := adds_only hall
    have hpf : vlanFlows sd (some v) = flowsOf a := by simp [vlanFlows, ha1]
    rw [setCfg_vlan, hpf]
    refine sliced_step keys_vid hs v.vid (flowsOf a) hg _ ?_
      (fun f hf => List.mem_append_right _ (ha2 _ (mem_flowsOf.1 hf))) ?_
      (fun s b _ hk => hdels v hok.vid ms h2 s b hk) (Or.inl (dels_vlan sd v hok.vid ms))
    · intro f hf
      rcases List.mem_append.1 hf with hf | hf
      · rw [hnadd v f hf]; decide
      · exact h1 f hf
    · intro f hf hcmd ht
      rcases List.mem_append.1 hf with hf | hf
      · rw [hnadd v f hf] at hcmd; cases hcmd
      · obtain ⟨f', e1, _, e3⟩ := ha3 _ hf
        injection e1 with e1
        subst e1
        exact mem_flowsOf.2 (e3 ht)
  | @del sw cfg v hv =>
    rw [setCfg_vlan]
    have hpf : vlanFlows sd none = [] := rfl
    rw [hpf]
    have hk := hdels v hv [] (by rintro s b ⟨x, hx, _⟩; cases hx)
    have hd := dels_vlan sd v hv []
    rw [List.append_nil] at hk hd
    refine sliced_step keys_vid hs v.vid [] ⟨by simp, by simp, by simp, by simp, by simp⟩ _ ?_ (by simp) ?_
      (fun s b _ h => hk s b h) (Or.inl hd)
    · intro f hf; rw [hnadd v f hf]; decide
    · intro f hf hcmd _; rw [hnadd v f hf] at hcmd; cases hcmd

theorem vlan_run_sliced {enc : Enc} {m : Mgr} (sd : Side enc m) {x y : Switch × VlanCfg} (hr : VlanRun enc m x y)
    (hs : Sliced sd.table.id vlanKey (fun n => vlanFlows sd (x.2 n)) x.1) :
    Sliced sd.table.id vlanKey (fun n => vlanFlows sd (y.2 n)) y.1 := by
  induction hr with
  | refl => exact hs
  | step _ hst ih => exact vlan_step_sliced sd hst ih

theorem vlan_run_ok {enc : Enc} {m : Mgr} {x y : Switch × VlanCfg} (hr : VlanRun enc m x y)
    (hx : ∀ n v, x.2 n = some v → VlanOk v ∧ v.vid = n ∧ (addVlan enc m v).isSome) :
    ∀ n v, y.2 n = some v → VlanOk v ∧ v.vid = n ∧ (addVlan enc m v).isSome := by
  induction hr with
  | refl => exact hx
  | step _ hst ih =>
    have hset : ∀ (cfg : VlanCfg) (q : Vlan) (o : Option Vlan), (∀ n p, cfg n = some p → VlanOk p ∧ p.vid = n ∧ (addVlan enc m p).isSome) →
        (∀ p, o = some p → VlanOk p ∧ p.vid = q.vid ∧ (addVlan enc m p).isSome) →
        ∀ n p, setVlan cfg q.vid o n = some p → VlanOk p ∧ p.vid = n ∧ (addVlan enc m p).isSome := by
      intro cfg q o h1 h2 n p hp
      unfold setVlan at hp
      split at hp
      · rename_i hn; subst hn; exact h2 p hp
      · exact h1 n p hp
    cases hst with
    | @add sw cfg p ms hok hc ha =>
      exact hset cfg p _ ih (fun q hq => by injection hq with hq; subst hq; exact ⟨hok, rfl, by rw [ha]; rfl⟩)
    | @replace sw cfg p ms hok ha =>
      exact hset cfg p _ ih (fun q hq => by injection hq with hq; subst hq; exact ⟨hok, rfl, by rw [ha]; rfl⟩)
    | @del sw cfg p hc =>
      exact hset cfg p _ ih (fun q hq => by cases hq)

theorem acl_good {enc : Enc} (he : EncOk enc) (c : Ctx) (acls : List Acl) (hok : AclsOk acls) (v : Nat) (hv : v < 4096)
    (hx : c.exact = false) (hhi : c.highest = aclPriority) (hp : c.port = none) (hcv : c.vlan = some v)
    (hct : c.tunnels = none) (hfd : c.flowdel = false) (ms : List OfMsg) (h : buildAcls enc c acls = some ms) :
    GoodFlows c.table.id vlanKey v (flowsOf ms) ∧ ∀ x ∈ ms, ∃ f, x = .flow f ∧ f.cmd = .add := by
  refine buildAcls_good c hx hhi acls hok vlanKey v ?_ ms h hct hfd
  intro r hr items hi
  rw [vlanKey_eq hv]
  exact vid_item_mem he c v hp hcv r (hok.unamb r hr) items hi

theorem good_nil (t v : Nat) : GoodFlows t vlanKey v (flowsOf []) ∧
    ∀ x ∈ ([] : List OfMsg), ∃ f, x = .flow f ∧ f.cmd = .add :=
  ⟨⟨by simp [flowsOf], by simp [flowsOf], by simp [flowsOf], by simp [flowsOf], by simp [flowsOf]⟩, by simp⟩

theorem vlanIn_good {enc : Enc} (he : EncOk enc) (m : Mgr) (t : Table) (hm : m.vlanTable = some t) (v : Vlan) (hok : VlanOk v)
    (ms : List OfMsg) (h : addVlanIn enc m v = some ms) :
    GoodFlows t.id vlanKey v.vid (flowsOf ms) ∧ ∀ x ∈ ms, ∃ f, x = .flow f ∧ f.cmd = .add := by
  unfold addVlanIn at h
  rw [hm] at h
  simp only at h
  by_cases hc : v.aclsIn ≠ []
  · rw [if_pos hc] at h
    have hok' := hok.aclsIn hc
    exact acl_good he (vlanCtx m t v) v.aclsIn hok' v.vid hok.vid hok'.inOrder rfl rfl rfl rfl rfl ms h
  · rw [if_neg hc] at h
    injection h with h
    subst h
    exact good_nil ..

theorem vlanOut_good {enc : Enc} (he : EncOk enc) (m : Mgr) (t : Table) (hm : m.egressTable = some t) (v : Vlan) (hok : VlanOk v)
    (ms : List OfMsg) (h : addVlanOut enc m v = some ms) :
    GoodFlows t.id vlanKey v.vid (flowsOf ms) ∧ ∀ x ∈ ms, ∃ f, x = .flow f ∧ f.cmd = .add := by
  unfold addVlanOut at h
  rw [hm] at h
  simp only at h
  by_cases hc : v.aclsOut ≠ []
  · rw [if_pos hc] at h
    have hok' := hok.aclsOut hc
    exact acl_good he (egressCtx m t v) v.aclsOut hok' v.vid hok.vid hok'.inOrder rfl rfl rfl rfl rfl ms h
  · rw [if_neg hc] at h
    injection h with h
    subst h
    refine ⟨⟨?_, ?_, ?_, ?_, ?_⟩, ?_⟩
    · intro f hf; simp [flowsOf, Table.flowadd] at hf; subst hf; rfl
    · intro f hf; simp [flowsOf, Table.flowadd] at hf; subst hf; rfl
    · intro f hf; simp [flowsOf, Table.flowadd] at hf; subst hf; simp [vlanKey_eq hok.vid]
    · intro f hf; simp [flowsOf, Table.flowadd] at hf; subst hf; exact (by decide : 0 < aclPriority)
    · intro f hf g hg _
      simp [flowsOf, Table.flowadd] at hf hg
      subst hf hg; rfl
    · intro x hx
      simp only [List.mem_singleton] at hx
      exact ⟨_, hx, rfl⟩

/-- Incoming packets. -/
def sideIn {enc : Enc} (he : EncOk enc) (m : Mgr) (t : Table) (hm : m.vlanTable = some t)
    (hne : ∀ te, m.egressTable = some te → te.id ≠ t.id) : Side enc m where
  table := t
  msgs := addVlanIn enc m
  good := fun v hok ms h => vlanIn_good he m t hm v hok ms h
  split := by
    intro v hok ms h
    unfold addVlan at h
    obtain ⟨a, ha, h⟩ := Option.bind_eq_some_iff.1 h
    obtain ⟨b, hb, rfl⟩ := Option.map_eq_some_iff.1 h
    refine ⟨a, ha, fun x hx => List.mem_append_left _ hx, ?_⟩
    intro x hx
    rcases List.mem_append.1 hx with hx | hx
    · obtain ⟨f, h1, h2⟩ := (vlanIn_good he m t hm v hok a ha).2 x hx
      exact ⟨f, h1, h2, fun _ => hx⟩
    · cases het : m.egressTable with
      | none => unfold addVlanOut at hb; rw [het] at hb; injection hb with hb; subst hb; cases hx
      | some te =>
        obtain ⟨hg, hall⟩ := vlanOut_good he m te het v hok b hb
        obtain ⟨f, h1, h2⟩ := hall x hx
        refine ⟨f, h1, h2, ?_⟩
        intro ht
        subst h1
        have := hg.table f (mem_flowsOf.2 hx)
        exact absurd (this.symm.trans ht) (hne te het)
  dels := by
    intro v
    unfold delVlan
    rw [hm]
    simp

/-- Outgoing packets. -/
def sideOut {enc : Enc} (he : EncOk enc) (m : Mgr) (t : Table) (hm : m.egressTable = some t)
    (hne : ∀ ti, m.vlanTable = some ti → ti.id ≠ t.id) : Side enc m where
  table := t
  msgs := addVlanOut enc m
  good := fun v hok ms h => vlanOut_good he m t hm v hok ms h
  split := by
    intro v hok ms h
    unfold addVlan at h
    obtain ⟨a, ha, h⟩ := Option.bind_eq_some_iff.1 h
    obtain ⟨b, hb, rfl⟩ := Option.map_eq_some_iff.1 h
    refine ⟨b, hb, fun x hx => List.mem_append_right _ hx, ?_⟩
    intro x hx
    rcases List.mem_append.1 hx with hx | hx
    · cases hit : m.vlanTable with
      | none => unfold addVlanIn at ha; rw [hit] at ha; injection ha with ha; subst ha; cases hx
      | some ti =>
        obtain ⟨hg, hall⟩ := vlanIn_good he m ti hit v hok a ha
        obtain ⟨f, h1, h2⟩ := hall x hx
        refine ⟨f, h1, h2, ?_⟩
        intro ht
        subst h1
        have := hg.table f (mem_flowsOf.2 hx)
        exact absurd (this.symm.trans ht) (hne ti hit)
    · obtain ⟨f, h1, h2⟩ := (vlanOut_good he m t hm v hok b hb).2 x hx
      exact ⟨f, h1, h2, fun _ => hx⟩
  dels := by
    intro v
    unfold delVlan
    rw [hm]
    simp

/-- **C14 (VLANs, incoming packets).** The same for the ACLs of VLANs: VLANs are added, replaced and deleted in any order;
a packet of VLAN `n` in the VLAN ACL table is treated as the first rule of the VLAN's ACLs that it meets says, and
dropped if it meets none. -/
theorem vlan_acl_in_decides {enc : Enc} (he : EncOk enc) (m : Mgr) (t : Table) (hm : m.vlanTable = some t)
    (hne : ∀ te, m.egressTable = some te → te.id ≠ t.id) (sw0 sw : Switch) (cfg : VlanCfg)
    (h0 : ∀ s b, sw0.flows s = some b → s.table = t.id → s.priority = 0 ∧ b.inst = [])
    (hr : VlanRun enc m (sw0, fun _ => none) (sw, cfg)) (n : Nat) (hn : n < 4096) (p : Pkt)
    (hp : p.field fVlanVid = some (vidPresent n)) (es : List Emit) (hproc : Proc sw t.id p es) :
    (cfg n = none → es = []) ∧
    ∀ v, cfg n = some v → v.aclsIn ≠ [] →
      (∀ r, FirstMatch enc none (some n) (allRules v.aclsIn) r p →
        (r.actions = none → es = []) ∧
        ∀ a, r.actions = some a → Direct a → Does sw m.toClass m.toL2 a p es) ∧
      ((∀ r ∈ allRules v.aclsIn, ¬ Meets enc none (some n) r p) → es = []) := by
  have hs := vlan_run_sliced (sideIn he m t hm hne) hr (sliced_init h0)
  have hok := vlan_run_ok hr (by intro n p h; cases h)
  have hh : (vlanKey n).hits p = true := by rw [vlanKey_eq hn]; exact vid_hits.2 hp
  refine ⟨?_, ?_⟩
  · intro hc
    exact slice_empty hs n (by simp only [hc]; rfl) p hh es hproc
  · intro v hv hacl
    obtain ⟨hvok, hvn, hsome⟩ := hok n v hv
    obtain ⟨ms, hms⟩ := Option.isSome_iff_exists.1 hsome
    unfold addVlan at hms
    obtain ⟨a, ha, _⟩ := Option.bind_eq_some_iff.1 hms
    have hcfg : vlanFlows (sideIn he m t hm hne) (cfg n) = flowsOf a := by simp [vlanFlows, hv, sideIn, ha]
    unfold addVlanIn at ha
    rw [hm] at ha
    simp only at ha
    rw [if_pos hacl] at ha
    have hok' := hvok.aclsIn hacl
    have := slice_decides he (vlanCtx m t v) hok'.inOrder rfl v.aclsIn hok' vlanKey n a ha
      (fun k => vlanFlows (sideIn he m t hm hne) (cfg k)) hcfg sw hs p hh es hproc
    have hpv : (vlanCtx m t v).vlan = some n := by rw [← hvn]; rfl
    rw [hpv] at this
    exact this

/-- **C14 (VLANs, outgoing packets).** The same in the egress ACL table; there a VLAN without ACLs lets packets pass
unchanged. -/
theorem vlan_acl_out_decides {enc : Enc} (he : EncOk enc) (m : Mgr) (t : Table) (hm : m.egressTable = some t)
    (hne : ∀ ti, m.vlanTable = some ti → ti.id ≠ t.id) (sw0 sw : Switch) (cfg : VlanCfg)
    (h0 : ∀ s b, sw0.flows s = some b → s.table = t.id → s.priority = 0 ∧ b.inst = [])
    (hr : VlanRun enc m (sw0, fun _ => none) (sw, cfg)) (n : Nat) (hn : n < 4096) (p : Pkt)
    (hp : p.field fVlanVid = some (vidPresent n)) (es : List Emit) (hproc : Proc sw t.id p es) :
    (cfg n = none → es = []) ∧
    ∀ v, cfg n = some v →
      (v.aclsOut = [] → Proc sw m.toEgress p es) ∧
      (v.aclsOut ≠ [] →
        (∀ r, FirstMatch enc none (some n) (allRules v.aclsOut) r p →
          (r.actions = none → es = []) ∧
          ∀ a, r.actions = some a → Direct a → Does sw m.toEgress m.toEgress a p es) ∧
        ((∀ r ∈ allRules v.aclsOut, ¬ Meets enc none (some n) r p) → es = [])) := by
  have hs := vlan_run_sliced (sideOut he m t hm hne) hr (sliced_init h0)
  have hok := vlan_run_ok hr (by intro n p h; cases h)
  have hh : (vlanKey n).hits p = true := by rw [vlanKey_eq hn]; exact vid_hits.2 hp
  refine ⟨?_, ?_⟩
  · intro hc
    exact slice_empty hs n (by simp only [hc]; rfl) p hh es hproc
  · intro v hv
    obtain ⟨hvok, hvn, hsome⟩ := hok n v hv
    obtain ⟨ms, hms⟩ := Option.isSome_iff_exists.1 hsome
    unfold addVlan at hms
    obtain ⟨a, _, hms⟩ := Option.bind_eq_some_iff.1 hms
    obtain ⟨b, hb, _⟩ := Option.map_eq_some_iff.1 hms
    have hcfg : vlanFlows (sideOut he m t hm hne) (cfg n) = flowsOf b := by simp [vlanFlows, hv, sideOut, hb]
    unfold addVlanOut at hb
    rw [hm] at hb
    simp only at hb
    refine ⟨?_, ?_⟩
    · intro hnil
      rw [if_neg (by simp [hnil])] at hb
      injection hb with hb
      subst hb
      refine slice_pass hs n _ m.toEgress ?_ ?_ hcfg p hh es hproc
      · rfl
      · rw [hvn, vlanKey_eq hn]
    · intro hacl
      rw [if_pos hacl] at hb
      have hok' := hvok.aclsOut hacl
      have := slice_decides he (egressCtx m t v) hok'.inOrder rfl v.aclsOut hok' vlanKey n b hb
        (fun k => vlanFlows (sideOut he m t hm hne) (cfg k)) hcfg sw hs p hh es hproc
      have hpv : (egressCtx m t v).vlan = some n := by rw [← hvn]; rfl
      rw [hpv] at this
      exact this

end Faucet.Acl
