import Verif.AclSw.Spec
import Verif.L2.UInv

/-! # ACLs of ports on a switch: facts about the tables and messages -/

namespace Faucet.AclSw
open Faucet.OF Faucet.Pipeline

/-- The tables with the one for ACLs of ports. -/
abbrev acf (e h k r : Bool) : Conf := { egress := e, hairpin := h, classification := k, ipv4 := r, portAcls := true }

theorem conf_eq (c : SCfg) : c.conf = acf c.l2.egressPipeline c.l2.hasHairpin c.l2.useClassification c.l2.ipv4 := rfl

/-- **The model is that of the tables FAUCET makes.** With ACLs on ports there is one more table, with number 0; the others are those
there are without, in the same order, with the same next tables and default, and the next number. -/
theorem shift_id (e h k r : Bool) :
    (tables (acf e h k r)).head?.map (fun t => (t.name, t.id)) = some (.portAcl, 0) ∧
    (tables (acf e h k r)).tail = (tables (L2.cf e h k r)).map (fun t => { t with id := shiftTable t.id }) := by
  revert e h k r; decide

theorem acl_zero (c : SCfg) : c.aclTable.id = 0 := by
  unfold SCfg.aclTable
  rw [conf_eq]
  generalize c.l2.egressPipeline = e, c.l2.hasHairpin = h, c.l2.useClassification = k, c.l2.ipv4 = r
  revert e h k r; decide

theorem to_vlan (c : SCfg) : c.mgr.toVlan = shiftTable 0 := by
  show idOf c.conf .vlan = _
  rw [conf_eq]
  generalize c.l2.egressPipeline = e, c.l2.hasHairpin = h, c.l2.useClassification = k, c.l2.ipv4 = r
  revert e h k r; decide

theorem ids_small (e h k r : Bool) (t : Tbl) : idOf (L2.cf e h k r) t ≠ tableAll := by
  cases t <;> revert e h k r <;> decide

theorem table_small (c : L2.Cfg) (t : Tbl) : (c.table t).id ≠ tableAll := ids_small _ _ _ _ t

theorem unshift {t : Nat} (h : t ≠ 0) : ∃ a, shiftTable a = t := by
  by_cases h1 : t = 255
  · exact ⟨255, by rw [h1]; rfl⟩
  · by_cases h2 : t = 256
    · exact ⟨254, by rw [h2]; rfl⟩
    · refine ⟨t - 1, ?_⟩
      rcases shiftTable_cases (t - 1) with ⟨a, b⟩ | ⟨a, b⟩ | ⟨a, b, d⟩ <;> omega

theorem unshift_slot {s : Slot} (h : s.table ≠ 0) : ∃ a : Slot, a.shift = s := by
  obtain ⟨t, p, i⟩ := s
  obtain ⟨a, ha⟩ := unshift h
  exact ⟨⟨a, p, i⟩, by simp only [Slot.shift]; rw [ha]⟩

/-! ## Messages of switching -/

/-- A message that leaves the tables before alone. -/
def Late (m : OfMsg) : Prop := match m with | .flow f => f.table ≠ tableAll | .group _ => False | .meter _ => False | _ => True

theorem urule_table {c : L2.Cfg} (hb : c.Basic) {K : Nat → Prop} {sl : Slot} {inst : List Inst} {h i : Nat} (hr : L2.URule c K sl inst h i) :
    sl.table ≠ tableAll := by
  obtain ⟨-, -, -, -, -, -, -, -, -, -, -, h1, h2, h3, h4⟩ := hb.distinct
  have h0 : (0 : Nat) ≠ tableAll := by decide
  cases hr <;> first | exact h0 | exact h1 | exact h2 | exact h3 | exact h4 | exact table_small c _

theorem late_of_u {c : L2.Cfg} (hb : c.Basic) {K : Nat → Prop} {n : Option Nat} {md : Bool} {m : OfMsg} (h : L2.MsgU c K n md m) : Late m := by
  obtain ⟨-, -, -, -, -, -, -, -, -, -, -, h1, h2, h3, h4⟩ := hb.distinct
  have h0 : (0 : Nat) ≠ tableAll := by decide
  cases m with
  | flow f =>
    obtain ⟨ha, hm, hd, hs⟩ := h
    show f.table ≠ tableAll
    cases hc : f.cmd with
    | add => exact urule_table hb (ha hc)
    | modifyStrict => rw [(hm hc).2.1]; exact h3
    | delete =>
      cases hd hc with
      | port _ ht _ => rcases ht with ht | ht <;> rw [ht]; exacts [h0, h1]
      | flood _ ht _ => rw [ht]; exact h3
      | out ht _ => rw [ht]; exact h2
      | hostSrc ht _ => rw [ht]; exact h1
      | hostDst ht _ => rw [ht]; exact h2
    | deleteStrict => exact absurd hc hs
  | group g => exact h
  | _ => trivial

theorem foldl_flows (ms : List OfMsg) (sw : Switch) (s : Slot) :
    (sw.execAll ms).flows s = ms.foldl (fun b m => m.onFlow s b) (sw.flows s) := by
  induction ms generalizing sw with
  | nil => rfl
  | cons m ms ih => exact ih (sw.exec m)

theorem foldl_groups (ms : List OfMsg) (a b : Switch) (h : a.groups = b.groups) : (a.execAll ms).groups = (b.execAll ms).groups := by
  induction ms generalizing a b with
  | nil => exact h
  | cons m ms ih =>
    refine ih (a.exec m) (b.exec m) ?_
    funext g
    show m.onGroup g (a.groups g) = m.onGroup g (b.groups g)
    rw [h]

/-- A cold start has a message that removes every flow. -/
theorem connect_wipes {c : L2.Cfg} {sh : List OfMsg → List OfMsg} {bar : Bool} {d : Nat → L2.Dyn} {up : List Nat}
    {lag : Nat → L2.LagChange} {out : List OfMsg} (hout : FlowReorder.reorder sh bar (c.connectMsgs d up lag) = some out) :
    ∃ m ∈ out.map OfMsg.shift, ∀ s b, m.onFlow s b = none := by
  have hd : (⟨tableAll, 0⟩ : Table).flowdel [] ∈ c.connectMsgs d up lag := by simp [L2.Cfg.connectMsgs, L2.Cfg.defaults]
  obtain ⟨d', h1, h2⟩ := L2.global_stays hout hd (by decide)
  refine ⟨d'.shift, List.mem_map_of_mem h1, ?_⟩
  intro sl b
  obtain ⟨g, rfl, hc, ht, -, hi, -, -, ho⟩ := FlowReorder.strKey_flow h2
  replace hc : g.cmd = .delete := hc
  replace ht : g.table = tableAll := ht
  replace hi : g.mtch.items = [] := hi
  replace ho : g.outPort = none := ho
  obtain ⟨cmd, tb, pr, mt, ck, is, op, hh, id⟩ := g
  simp only at hc ht hi ho
  subst hc ht ho
  show b.filter _ = none
  refine Option.filter_eq_none_iff.2 ?_
  intro x _
  simp [FlowMod.kills, FlowMod.tableOk, FlowMod.shift, shiftTable, hi, coversItems, FlowMod.outPortOk]

theorem connect_zero {c : L2.Cfg} {sh : List OfMsg → List OfMsg} {bar : Bool} {d : Nat → L2.Dyn} {up : List Nat}
    {lag : Nat → L2.LagChange} {out : List OfMsg} (hout : FlowReorder.reorder sh bar (c.connectMsgs d up lag) = some out) (sw : Switch)
    {s : Slot} (hs : s.table = 0) : (sw.execAll (out.map OfMsg.shift)).flows s = none := by
  obtain ⟨m, hm, hw⟩ := connect_wipes hout
  rw [foldl_flows, wiped hm s (hw s) _ none]
  clear hm hw hout
  induction out with
  | nil => rfl
  | cons x xs ih =>
    show List.foldl _ (x.shift.onFlow s none) (xs.map OfMsg.shift) = none
    rw [shift_zero_none hs]
    exact ih

/-- A cold start: whatever the switch had, the later tables have what the messages say. -/
theorem connect_lifts {c : L2.Cfg} {sh : List OfMsg → List OfMsg} {bar : Bool} {d : Nat → L2.Dyn} {up : List Nat}
    {lag : Nat → L2.LagChange} {out : List OfMsg} (hout : FlowReorder.reorder sh bar (c.connectMsgs d up lag) = some out) (sw : Switch) :
    Lifts (sw.execAll (out.map OfMsg.shift)) (Switch.execAll ⟨fun _ => none, sw.groups, sw.meters⟩ out) := by
  obtain ⟨m, hm, hw⟩ := connect_wipes hout
  have h0 : Lifts (⟨fun _ => none, sw.groups, sw.meters⟩ : Switch) ⟨fun _ => none, sw.groups, sw.meters⟩ := ⟨fun _ => rfl, rfl⟩
  have h1 := h0.execAll out
  refine ⟨?_, ?_⟩
  · intro s
    rw [← h1.flows s, foldl_flows, foldl_flows]
    exact wiped hm _ (hw _) _ _
  · rw [← h1.groups]
    exact foldl_groups _ _ _ rfl

/-! ## Messages for the ACL table -/

/-- A message for table 0, without timeouts. -/
def First (m : OfMsg) : Prop := ∃ f, m = .flow f ∧ f.table = 0 ∧ f.hard = 0 ∧ f.idle = 0

theorem first_flow {m : OfMsg} (h : First m) {s : Slot} (hs : s.table ≠ 0) (b : Option Body) : m.onFlow s b = b := by
  obtain ⟨f, rfl, ht, -, -⟩ := h
  have hne : f.slot ≠ s := fun h => hs (by rw [← h]; exact ht)
  have hk : ∀ x, f.kills s x = false := by
    intro x
    have h1 : f.tableOk s.table = false := by
      unfold FlowMod.tableOk
      rw [ht, Bool.or_eq_false_iff, beq_eq_false_iff_ne, beq_eq_false_iff_ne]
      exact ⟨by decide, fun h => hs h.symm⟩
    unfold FlowMod.kills
    rw [h1]
    cases f.cmd <;> simp
  have hf : ∀ (b : Option Body), b.filter (fun x => !f.kills s x) = b := by
    intro b
    cases b with
    | none => rfl
    | some x => simp [Option.filter, hk x]
  unfold OfMsg.onFlow
  simp only
  rw [if_neg hne, if_neg hne, hf b]
  cases f.cmd <;> rfl

theorem first_lifts {ms : List OfMsg} (hm : ∀ m ∈ ms, First m) {sw l : Switch} (h : Lifts sw l) : Lifts (sw.execAll ms) l := by
  induction ms generalizing sw with
  | nil => exact h
  | cons m ms ih =>
    refine ih (fun x hx => hm x (List.mem_cons_of_mem _ hx)) (sw := sw.exec m) ?_
    have hf := hm m List.mem_cons_self
    refine ⟨?_, ?_⟩
    · intro s
      rw [← h.flows s]
      exact first_flow hf (shiftTable_pos s.table) _
    · obtain ⟨f, rfl, -⟩ := hf
      rw [← h.groups]
      rfl

/-- No rule in table 0 times out. -/
def Eternal (sw : Switch) : Prop := ∀ sl b, sw.flows sl = some b → sl.table = 0 → b.hard = 0 ∧ b.idle = 0

theorem first_eternal {ms : List OfMsg} (hm : ∀ m ∈ ms, First m) {sw : Switch} (h : Eternal sw) : Eternal (sw.execAll ms) := by
  induction ms generalizing sw with
  | nil => exact h
  | cons m ms ih =>
    refine ih (fun x hx => hm x (List.mem_cons_of_mem _ hx)) (sw := sw.exec m) ?_
    obtain ⟨f, rfl, ht, hh, hi⟩ := hm m List.mem_cons_self
    intro sl b hb hs
    have hb : (OfMsg.flow f).onFlow sl (sw.flows sl) = some b := hb
    obtain ⟨cmd, tb, pr, mt, ck, is, op, hd, id⟩ := f
    simp only at hh hi
    subst hh hi
    have hfil : ∀ p : Body → Bool, (sw.flows sl).filter p = some b → b.hard = 0 ∧ b.idle = 0 := by
      intro p hp
      exact h sl b (Option.filter_eq_some_iff.1 hp).1 hs
    cases cmd with
    | add =>
      simp only [OfMsg.onFlow] at hb
      split at hb
      · injection hb with hb; subst hb; exact ⟨rfl, rfl⟩
      · exact h sl b hb hs
    | modifyStrict =>
      simp only [OfMsg.onFlow] at hb
      split at hb
      · obtain ⟨x, hx, rfl⟩ := Option.map_eq_some_iff.1 hb
        exact h sl x hx hs
      · exact h sl b hb hs
    | delete => exact hfil _ hb
    | deleteStrict => exact hfil _ hb

theorem addPort_first {c : SCfg} {enc : Acl.Enc} {q : Acl.Port} (hok : Acl.PortOk q) {ms : List OfMsg} (h : Acl.addPort enc c.mgr q = some ms) :
    ∀ m ∈ ms, First m := by
  unfold Acl.addPort at h
  cases ha : Acl.portAclsAllowed c.mgr q with
  | none => rw [ha] at h; injection h with h; subst h; intro m hm; cases hm
  | some t =>
    have ht : t = c.aclTable := by
      unfold Acl.portAclsAllowed at ha
      split at ha
      · exact (Option.some.inj ha).symm
      · cases ha
    subst ht
    rw [ha] at h
    simp only at h
    by_cases hc : q.aclsIn ≠ []
    · rw [if_pos hc] at h
      have hok' := hok.acls hc
      rw [Acl.buildAcls_eq] at h
      have hall := Acl.buildList_flows enc (Acl.portCtx c.mgr c.aclTable q) rfl rfl (Acl.allRules q.aclsIn) hok'.noFailover _ ms h
      obtain ⟨_, hm2, _⟩ := Acl.mem_buildList enc _ _ _ ms h
      intro m hm
      obtain ⟨f, rfl, hcmd⟩ := hall m hm
      obtain ⟨i, r, items, x, -, -, -, e4⟩ := hm2 f hm hcmd
      refine ⟨f, rfl, ?_, ?_, ?_⟩
      · rw [e4]; exact acl_zero c
      · rw [e4]; rfl
      · rw [e4]; rfl
    · rw [if_neg hc, hok.noDot1x] at h
      simp only [Bool.not_false, if_true] at h
      injection h with h
      subst h
      intro m hm
      rw [List.mem_singleton.1 hm]
      exact ⟨_, rfl, acl_zero c, rfl, rfl⟩

theorem delPort_first {c : SCfg} {q : Acl.Port} : ∀ m ∈ Acl.delPort c.mgr q, First m := by
  intro m hm
  obtain ⟨t, ht, rfl⟩ := Acl.mem_delPort hm
  have ht : t = c.aclTable := (Option.some.inj ht).symm
  subst ht
  exact ⟨_, rfl, acl_zero c, rfl, rfl⟩

end Faucet.AclSw
