import Verif.Pipeline.Msgs

/-!
# Whatever is sent, every packet is processed to the end
-/

namespace Faucet.Pipeline
open Faucet.OF

/-! ## ACLs -/

theorem group_fwd {I : List Nat} {gid : Nat} {ps : List Nat} : ∀ m ∈ Acl.failoverMsgs gid ps, FwdMsg I m := by
  intro m hm
  simp only [Acl.failoverMsgs, List.mem_cons, List.not_mem_nil, or_false] at hm
  rcases hm with rfl | rfl <;> exact trivial

/-- An output that a user can write makes no goto, and its messages are about groups. -/
def PlainOut (o : Acl.Out) : Prop := (∀ n, Inst.goto n ∉ o.inst) ∧ ∀ m ∈ o.msgs, ∃ g, m = .group g

theorem plain_append {a b : Acl.Out} (ha : PlainOut a) (hb : PlainOut b) : PlainOut (a.append b) := by
  refine ⟨?_, ?_⟩
  · intro n hn
    rcases List.mem_append.1 hn with h | h
    · exact ha.1 n h
    · exact hb.1 n h
  · intro m hm
    rcases List.mem_append.1 hm with h | h
    · exact ha.2 m h
    · exact hb.2 m h

theorem failover_group {gid : Nat} {ps : List Nat} : ∀ m ∈ Acl.failoverMsgs gid ps, ∃ g, m = .group g := by
  intro m hm
  simp only [Acl.failoverMsgs, List.mem_cons, List.not_mem_nil, or_false] at hm
  rcases hm with rfl | rfl <;> exact ⟨_, rfl⟩

theorem plain_flat {a : Acl.OutAct} (h : ∀ n, a ≠ .goto n) : PlainOut (Acl.actFlat a) := by
  cases a with
  | goto t => exact absurd rfl (h t)
  | failover g ns => exact ⟨by simp [Acl.actFlat], by intro m hm; exact failover_group m hm⟩
  | _ => exact ⟨by simp [Acl.actFlat], by simp [Acl.actFlat]⟩

theorem plain_empty : PlainOut {} := ⟨by simp, by simp⟩

theorem plain_setPort {o : Acl.Out} {b : Bool} (h : PlainOut o) : PlainOut (o.setPort b) := h

theorem tunnelOut_none {k : Bool} {t : Option Nat} : Acl.tunnelOut k none t = some {} := rfl

theorem plain_build {o : Acl.Output} (hn : NoGoto o) {x : Acl.Out} (h : Acl.buildOut none o = some x) : PlainOut x := by
  cases o with
  | dict d =>
    have hn : d.goto = none := hn
    simp only [Acl.buildOut, tunnelOut_none, Option.map_some, Option.some.injEq] at h
    rw [← h]
    refine plain_append (plain_append ⟨by simp [Acl.dictHead], ?_⟩ plain_empty) ⟨by simp [Acl.dictGoto, hn], by simp [Acl.dictGoto]⟩
    intro m hm
    cases hf : d.failover with
    | none => simp [Acl.dictHead, hf] at hm
    | some g =>
      simp only [Acl.dictHead, hf] at hm
      exact failover_group m hm
  | ordered l =>
    have hn : ∀ n, Acl.OutAct.goto n ∉ l := hn
    simp only [Acl.buildOut] at h
    obtain ⟨y, hy, rfl⟩ := Option.map_eq_some_iff.1 h
    apply plain_setPort
    have gen : ∀ (l : List Acl.OutAct) (o y : Acl.Out), (∀ n, Acl.OutAct.goto n ∉ l) → PlainOut o →
        l.foldlM (fun (o : Acl.Out) a => (Acl.actOut none a).map (fun x => o.append x)) o = some y → PlainOut y := by
      intro l
      induction l with
      | nil => intro o y _ ho e; cases e; exact ho
      | cons a l ih =>
        intro o y hn ho e
        have hna : ∀ n, a ≠ .goto n := fun n q => hn n (by rw [q]; exact List.mem_cons_self)
        have hp : ∃ z, Acl.actOut none a = some z ∧ PlainOut z := by
          cases a with
          | tunnel t => exact ⟨{}, rfl, plain_empty⟩
          | _ => exact ⟨_, rfl, plain_flat hna⟩
        obtain ⟨z, hz, pz⟩ := hp
        rw [List.foldlM_cons, hz] at e
        exact ih (o.append z) y (fun n q => hn n (List.mem_cons_of_mem _ q)) (plain_append ho pz) e
    exact gen l {} y hn plain_empty hy

theorem ruleInst_fwd {I : List Nat} {x : Acl.Ctx} {r : Acl.Rule} {i : List Inst} {ms : List OfMsg}
    (ha : x.table.id < x.allowTable ∧ x.allowTable ∈ I) (hf : x.table.id < x.forceTable ∧ x.forceTable ∈ I)
    (ht : x.tunnels = none) (hn : ∀ a, r.actions = some a → ∀ o, a.output = some o → NoGoto o)
    (h : Acl.ruleInst x r = some (i, ms)) : FwdInst I x.table.id i ∧ ∀ m ∈ ms, ∃ g, m = .group g := by
  unfold Acl.ruleInst at h
  cases hr : r.actions with
  | none =>
    rw [hr] at h
    simp only [Option.some.injEq, Prod.mk.injEq] at h
    obtain ⟨rfl, rfl⟩ := h
    exact ⟨fun n hn => by simp at hn, by simp⟩
  | some a =>
    rw [hr] at h
    obtain ⟨m, hm, h⟩ := Option.bind_eq_some_iff.1 h
    obtain ⟨o, ho, h⟩ := Option.map_eq_some_iff.1 h
    simp only [Prod.mk.injEq] at h
    obtain ⟨rfl, rfl⟩ := h
    have po : PlainOut o := by
      unfold Acl.outputOf at ho
      cases hao : a.output with
      | none => rw [hao] at ho; cases ho; exact plain_empty
      | some q =>
        rw [hao, ht] at ho
        exact plain_build (hn a hr q hao) ho
    have pm : ∀ n, Inst.goto n ∉ m := by
      unfold Acl.meterInst at hm
      cases ham : a.meter with
      | none => rw [ham] at hm; cases hm; simp
      | some k =>
        rw [ham] at hm
        obtain ⟨z, _, rfl⟩ := Option.map_eq_some_iff.1 hm
        simp
    refine ⟨?_, po.2⟩
    intro n hg
    simp only [List.mem_append] at hg
    rcases hg with ((hg | hg) | hg) | hg
    · exact absurd hg (pm n)
    · exact absurd hg (po.1 n)
    · unfold Acl.gotoInst Acl.allowInst at hg
      split at hg
      · simp at hg
      · split at hg
        · split at hg
          · simp at hg; rw [hg]; exact hf
          · simp at hg; rw [hg]; exact ha
        · simp at hg
    · split at hg <;> simp at hg

theorem buildAcls_fwd {I : List Nat} {enc : Acl.Enc} {x : Acl.Ctx} {acls : List Acl.Acl} {ms : List OfMsg}
    (ha : x.table.id < x.allowTable ∧ x.allowTable ∈ I) (hf : x.table.id < x.forceTable ∧ x.forceTable ∈ I)
    (ht : x.tunnels = none) (hn : ∀ a ∈ acls, AclNoGoto a) (h : Acl.buildAcls enc x acls = some ms) :
    ∀ m ∈ ms, FwdMsg I m := by
  have one : ∀ (prio : Nat) (r : Acl.Rule) (ms : List OfMsg),
      (∀ a, r.actions = some a → ∀ o, a.output = some o → NoGoto o) →
      Acl.buildRule enc x prio r = some ms → ∀ m ∈ ms, FwdMsg I m := by
    intro prio r ms hr h m hm
    obtain ⟨items, _, h⟩ := Option.bind_eq_some_iff.1 h
    obtain ⟨⟨i, gs⟩, hi, h⟩ := Option.map_eq_some_iff.1 h
    obtain ⟨fi, fg⟩ := ruleInst_fwd ha hf ht hr hi
    rw [← h] at hm
    simp only [List.mem_append, List.mem_singleton] at hm
    rcases hm with (hm | hm) | hm
    · obtain ⟨g, rfl⟩ := fg m hm
      exact trivial
    · split at hm
      · simp only [List.mem_singleton] at hm
        rw [hm]; exact fwd_del
      · simp at hm
    · rw [hm]
      exact fun _ => fwd_trim fi
  have rules : ∀ (rs : List Acl.Rule) (st st' : Nat × List OfMsg),
      (∀ r ∈ rs, ∀ a, r.actions = some a → ∀ o, a.output = some o → NoGoto o) → (∀ m ∈ st.2, FwdMsg I m) →
      Acl.buildRules enc x st rs = some st' → ∀ m ∈ st'.2, FwdMsg I m := by
    intro rs
    induction rs with
    | nil => intro st st' _ hs h; cases h; exact hs
    | cons r rs ih =>
      intro st st' hr hs h
      simp only [Acl.buildRules, List.foldlM_cons] at h
      obtain ⟨st1, h1, h⟩ := Option.bind_eq_some_iff.1 h
      obtain ⟨ms, hms, rfl⟩ := Option.map_eq_some_iff.1 h1
      refine ih _ st' (fun q hq => hr q (List.mem_cons_of_mem _ hq)) ?_ h
      intro m hm
      rcases List.mem_append.1 hm with hm | hm
      · exact hs m hm
      · exact one st.1 r ms (hr r List.mem_cons_self) hms m hm
  have all : ∀ (acls : List Acl.Acl) (st st' : Nat × List OfMsg), (∀ a ∈ acls, AclNoGoto a) → (∀ m ∈ st.2, FwdMsg I m) →
      acls.foldlM (fun st (acl : Acl.Acl) => Acl.buildRules enc x st acl.rules) st = some st' → ∀ m ∈ st'.2, FwdMsg I m := by
    intro acls
    induction acls with
    | nil => intro st st' _ hs h; cases h; exact hs
    | cons a acls ih =>
      intro st st' hr hs h
      rw [List.foldlM_cons] at h
      obtain ⟨st1, h1, h⟩ := Option.bind_eq_some_iff.1 h
      exact ih st1 st' (fun q hq => hr q (List.mem_cons_of_mem _ hq))
        (rules a.rules st st1 (hr a List.mem_cons_self) hs h1) h
  unfold Acl.buildAcls at h
  obtain ⟨st, hst, rfl⟩ := Option.map_eq_some_iff.1 h
  exact all acls _ st hn (by simp) hst

theorem wired_table {c : Conf} {a : Tbl} {t : Table} {o : Option Table} (h : o.map (·.id) = (table c a).map (·.id))
    (e : o = some t) : included c a = true ∧ t.id = idOf c a := by
  rw [e] at h
  simp only [Option.map_some] at h
  cases ht : table c a with
  | none => rw [ht] at h; simp at h
  | some s =>
    rw [ht] at h
    refine ⟨(table_some_iff c a).1 (by rw [ht]; rfl), ?_⟩
    simp only [Option.map_some, Option.some.injEq] at h
    simp [idOf, ht, h]

theorem class_fwd {c : Conf} {a : Tbl} (ha : included c a = true) (h : rank a < 4) :
    idOf c a < idOf c (classTable c) ∧ idOf c (classTable c) ∈ ids c := by
  have hi := class_included c
  rcases class_cases c with e | e <;> rw [e] at hi ⊢
  · exact idOf_fwd ha hi h (by simp)
  · exact idOf_fwd ha hi (Nat.lt_trans h (by decide)) (by simp)

theorem out_fwd {c : Conf} {a : Tbl} (ha : included c a = true) (h : rank a < 9) :
    idOf c a < idOf c (outTable c) ∧ idOf c (outTable c) ∈ ids c := by
  have hi := out_included c
  rcases out_cases c with e | e <;> rw [e] at hi ⊢
  · exact idOf_fwd ha hi h (by simp)
  · exact idOf_fwd ha hi (Nat.lt_trans h (by decide)) (by simp)

theorem outputTo_fwd {c : Conf} {a : Tbl} (ha : included c a = true) (he : c.egressPipeline = true) (h : rank a < 11) :
    idOf c a < idOf c (outputTo c) ∧ idOf c (outputTo c) ∈ ids c := by
  have hi := outputTo_included he
  rcases outputTo_cases c with e | e <;> rw [e] at hi ⊢
  · exact idOf_fwd ha hi h (by simp)
  · exact idOf_fwd ha hi (Nat.lt_trans h (by decide)) (by simp)

theorem initTables_fwd {c : Conf} {enc : Acl.Enc} {g : Acl.Mgr} {ms : List OfMsg} (w : AclWired c g)
    (hn : ∀ a ∈ g.dpAcls, AclNoGoto a) (h : Acl.initTables enc g = some ms) : ∀ m ∈ ms, FwdMsg (ids c) m := by
  unfold Acl.initTables at h
  cases ht : g.portTable with
  | none => rw [ht] at h; cases h; simp
  | some t =>
    rw [ht] at h
    obtain ⟨hi, he⟩ := wired_table w.port ht
    by_cases hd : g.dpAcls = []
    · simp only [hd, if_true] at h; cases h; simp
    · simp only [if_neg hd] at h
      refine buildAcls_fwd ?_ ?_ rfl hn h
      · show t.id < g.toVlan ∧ g.toVlan ∈ ids c
        rw [w.toVlan, he]
        exact idOf_fwd hi rfl (by decide) (by decide)
      · show t.id < g.toL2 ∧ g.toL2 ∈ ids c
        rw [w.toL2, he]
        exact out_fwd hi (by decide)

theorem coldStartPort_fwd {c : Conf} {enc : Acl.Enc} {g : Acl.Mgr} {p : Acl.Port} {ms : List OfMsg} (w : AclWired c g)
    (hn : ∀ a ∈ p.aclsIn, AclNoGoto a) (h : Acl.coldStartPort enc g p = some ms) : ∀ m ∈ ms, FwdMsg (ids c) m := by
  unfold Acl.coldStartPort at h
  obtain ⟨as, ha, rfl⟩ := Option.map_eq_some_iff.1 h
  intro m hm
  rcases List.mem_append.1 hm with hm | hm
  · unfold Acl.delPort at hm
    split at hm
    · simp at hm
    · simp only [List.mem_singleton] at hm
      rw [hm]; exact fwd_del
  · unfold Acl.addPort at ha
    cases hp : Acl.portAclsAllowed g p with
    | none => rw [hp] at ha; cases ha; simp at hm
    | some t =>
      rw [hp] at ha
      have ht : g.portTable = some t := by
        unfold Acl.portAclsAllowed at hp
        split at hp
        · exact hp
        · simp at hp
      obtain ⟨hi, he⟩ := wired_table w.port ht
      have fv : t.id < g.toVlan ∧ g.toVlan ∈ ids c := by
        rw [w.toVlan, he]
        exact idOf_fwd hi rfl (by decide) (by decide)
      by_cases ne : p.aclsIn ≠ []
      · simp only [if_pos ne] at ha
        refine buildAcls_fwd (x := Acl.portCtx g t p) fv ?_ rfl hn ha m hm
        show t.id < g.toL2 ∧ g.toL2 ∈ ids c
        rw [w.toL2, he]
        exact out_fwd hi (by decide)
      · simp only [if_neg ne] at ha
        by_cases hd : (!p.dot1x) = true
        · simp only [if_pos hd] at ha
          cases ha
          simp only [List.mem_singleton] at hm
          rw [hm]
          exact fwd_add (fwd_goto fv)
        · simp only [if_neg hd] at ha
          cases ha
          simp at hm

theorem addVlan_fwd {c : Conf} {enc : Acl.Enc} {g : Acl.Mgr} {v : Acl.Vlan} {ms : List OfMsg} (w : AclWired c g)
    (hn : ∀ a ∈ v.aclsIn ++ v.aclsOut, AclNoGoto a) (h : Acl.addVlan enc g v = some ms) : ∀ m ∈ ms, FwdMsg (ids c) m := by
  unfold Acl.addVlan at h
  obtain ⟨as, ha, h⟩ := Option.bind_eq_some_iff.1 h
  obtain ⟨bs, hb, rfl⟩ := Option.map_eq_some_iff.1 h
  intro m hm
  rcases List.mem_append.1 hm with hm | hm
  · unfold Acl.addVlanIn at ha
    cases ht : g.vlanTable with
    | none => rw [ht] at ha; cases ha; simp at hm
    | some t =>
      rw [ht] at ha
      obtain ⟨hi, he⟩ := wired_table w.vlan ht
      by_cases ne : v.aclsIn ≠ []
      · simp only [if_pos ne] at ha
        refine buildAcls_fwd (x := Acl.vlanCtx g t v) ?_ ?_ rfl (fun a q => hn a (List.mem_append_left _ q)) ha m hm
        · show t.id < g.toClass ∧ g.toClass ∈ ids c
          rw [w.toClass, he]
          exact class_fwd hi (by decide)
        · show t.id < g.toL2 ∧ g.toL2 ∈ ids c
          rw [w.toL2, he]
          exact out_fwd hi (by decide)
      · simp only [if_neg ne] at ha
        cases ha
        simp at hm
  · unfold Acl.addVlanOut at hb
    cases ht : g.egressTable with
    | none => rw [ht] at hb; cases hb; simp at hm
    | some t =>
      rw [ht] at hb
      obtain ⟨hi, he⟩ := wired_table w.egress ht
      have ep : c.egressPipeline = true := by
        have hi : c.egressAcls = true := hi
        simp [Conf.egressPipeline, hi]
      have fe : t.id < g.toEgress ∧ g.toEgress ∈ ids c := by
        rw [w.toEgress ep, he]
        exact idOf_fwd hi ep (by decide) (by decide)
      by_cases ne : v.aclsOut ≠ []
      · simp only [if_pos ne] at hb
        exact buildAcls_fwd (x := Acl.egressCtx g t v) fe fe rfl (fun a q => hn a (List.mem_append_right _ q)) hb m hm
      · simp only [if_neg ne] at hb
        cases hb
        simp only [List.mem_singleton] at hm
        rw [hm]
        exact fwd_add (fwd_goto fe)

/-! ## 802.1x -/

theorem addPortAcl_fwd {c : Conf} {d : Dot1x.Cfg} {acl : Acl.Acl} {port : Nat} {mac : Option Nat} {fs : List FlowMod}
    (w : Dot1xWired c d) (hn : AclNoGoto acl) (h : Dot1x.addPortAcl d acl port mac = some fs) :
    ∀ f ∈ fs, FwdMsg (ids c) (.flow f) := by
  unfold Dot1x.addPortAcl at h
  split at h
  · simp at h
  · obtain ⟨ms, hms, h⟩ := Option.bind_eq_some_iff.1 h
    have fv : d.table.id < d.vlanTable ∧ d.vlanTable ∈ ids c := by
      rw [w.port, w.toVlan]
      exact idOf_fwd w.has rfl (by decide) (by decide)
    have hf := buildAcls_fwd (x := Dot1x.aclCtx d acl port) (I := ids c) fv fv rfl
      (by intro a ha; simp only [List.mem_singleton] at ha; rw [ha]; exact hn) hms
    have gen : ∀ (ms : List OfMsg) (fs : List FlowMod), (∀ m ∈ ms, FwdMsg (ids c) m) → Dot1x.macFlows d mac ms = some fs →
        ∀ f ∈ fs, FwdMsg (ids c) (.flow f) := by
      intro ms
      induction ms with
      | nil => intro fs _ h; cases h; simp
      | cons m ms ih =>
        intro fs hm h f hf
        obtain ⟨a, ha, h⟩ := Option.bind_eq_some_iff.1 h
        obtain ⟨b, hb, rfl⟩ := Option.map_eq_some_iff.1 h
        rcases List.mem_cons.1 hf with e | hf
        · rw [e]
          cases m with
          | flow q =>
            obtain ⟨items, _, rfl⟩ := Option.map_eq_some_iff.1 ha
            exact hm (.flow q) List.mem_cons_self
          | _ => simp [Dot1x.macFlow] at ha
        · exact ih b (fun x hx => hm x (List.mem_cons_of_mem _ hx)) hb f hf
    exact gen ms fs hf h

/-! ## Learning -/

theorem outputTable_eq {c : Conf} {l : Learn.Cfg} (w : LearnWired c l) : Learn.outputTable l = idOf c (outTable c) := by
  unfold Learn.outputTable
  cases hh : l.hairpin with
  | none =>
    have := w.hairpin
    rw [hh] at this
    have hc : c.hairpin = false := by
      cases q : c.hairpin with
      | false => rfl
      | true =>
        obtain ⟨t, ht⟩ := exists_table (c := c) (n := .hairpin) q
        rw [ht] at this
        simp at this
    simp only [outTable, hc]
    exact w.dst
  | some t =>
    obtain ⟨h1, h2⟩ := wired_table w.hairpin hh
    have hc : c.hairpin = true := h1
    simp only [outTable, hc, if_true]
    exact h2

theorem pipelineOutput_fwd {c : Conf} {l : Learn.Cfg} (w : LearnWired c l) {a : Tbl} (ha : included c a = true)
    (h : rank a < 11) (p vid : Nat) (hp : Bool) (e : Option Bool) :
    FwdInst (ids c) (idOf c a) (Learn.pipelineOutput l p vid hp e) := by
  unfold Learn.pipelineOutput
  rw [w.egress]
  by_cases he : c.egressPipeline = true
  · simp only [he, if_true]
    intro n hn
    simp at hn
    rw [hn]
    exact outputTo_fwd ha he h
  · simp only [he]
    exact fwd_apply

theorem deleteHost_fwd {I : List Nat} {l : Learn.Cfg} {mac vid : Nat} : ∀ m ∈ Learn.deleteHost l mac vid, FwdMsg I m := by
  intro m hm
  unfold Learn.deleteHost at hm
  cases hh : l.hairpin with
  | none =>
    rw [hh] at hm
    simp only [List.append_nil, List.mem_cons, List.not_mem_nil, or_false] at hm
    rcases hm with rfl | rfl <;> exact fwd_del
  | some t =>
    rw [hh] at hm
    simp only [List.mem_append, List.mem_cons, List.not_mem_nil, or_false] at hm
    rcases hm with (rfl | rfl) | rfl <;> exact fwd_del

theorem learnFlows_fwd {c : Conf} {l : Learn.Cfg} (w : LearnWired c l) {p : HostCache.Port} {vid mac : Nat} {del ref : Bool}
    {tmo : Nat × Nat × Nat} : ∀ m ∈ Learn.learnFlows l p vid mac del ref tmo, FwdMsg (ids c) m := by
  have dst : FwdInst (ids c) l.ethDst.id (Learn.dstInst l p.number vid) := by
    rw [w.dst]
    exact pipelineOutput_fwd w rfl (by decide) _ _ _ _
  intro m hm
  simp only [Learn.learnFlows, List.mem_append] at hm
  rcases hm with (hm | hm) | hm
  · split at hm
    · exact deleteHost_fwd m hm
    · simp at hm
  · simp only [List.mem_singleton] at hm
    rw [hm]
    refine fwd_add (fwd_goto ?_)
    rw [outputTable_eq w, w.src]
    exact out_fwd rfl (by decide)
  · split at hm
    · simp at hm
    · simp only [List.mem_append] at hm
      rcases hm with (hm | hm) | hm
      · simp only [List.mem_singleton] at hm
        rw [hm]
        exact fwd_add dst
      · split at hm
        · simp only [List.mem_singleton] at hm
          rw [hm]
          exact fwd_add dst
        · simp at hm
      · split at hm
        · cases hh : l.hairpin with
          | none => rw [hh] at hm; simp at hm
          | some t =>
            rw [hh] at hm
            simp only [List.mem_singleton] at hm
            obtain ⟨h1, h2⟩ := wired_table w.hairpin hh
            rw [hm]
            refine fwd_add ?_
            rw [h2]
            exact pipelineOutput_fwd w h1 (by decide) _ _ _ _
        · simp at hm

theorem rcvPacket_fwd {c : Conf} {l : Learn.Cfg} (w : LearnWired c l) {st st' : Learn.St} {now : Int} {p : HostCache.Port}
    {vid mac : Nat} {ms : List OfMsg} (h : Learn.rcvPacket l st now p vid mac = some (ms, st')) :
    ∀ m ∈ ms, FwdMsg (ids c) m := by
  have ports : ∀ d cs, ∀ m ∈ (Learn.learnHostOnVlanPorts l st now p vid mac d cs).msgs, FwdMsg (ids c) m := by
    intro d cs m hm
    unfold Learn.learnHostOnVlanPorts at hm
    simp only at hm
    split at hm
    · next x hx =>
      unfold Learn.permCheck at hx
      split at hx
      · split at hx
        · cases hx
          simp only at hm
          split at hm
          · simp at hm
          · simp only [List.mem_singleton] at hm
            rw [hm]; exact fwd_drop
        · simp at hx
      · simp at hx
    · split at hm
      · simp at hm
      · split at hm
        · simp only [List.mem_singleton] at hm
          rw [hm]; exact fwd_drop
        · exact learnFlows_fwd w m hm
  unfold Learn.rcvPacket at h
  simp only at h
  split at h
  · cases h
    intro m hm
    unfold Learn.banRules at hm
    split at hm
    · simp only [List.mem_append] at hm
      rcases hm with hm | hm
      · split at hm
        · simp only [List.mem_singleton] at hm
          rw [hm]; exact fwd_drop
        · simp at hm
      · split at hm
        · simp only [List.mem_singleton] at hm
          rw [hm]; exact fwd_drop
        · simp at hm
    · simp at hm
  · unfold Learn.learnHost at h
    simp only at h
    split at h
    · obtain ⟨x, _, e⟩ := Option.map_eq_some_iff.1 h
      simp only [Prod.mk.injEq] at e
      rw [← e.1]
      exact ports _ _
    · simp only [Option.some.injEq, Prod.mk.injEq] at h
      rw [← h.1]
      exact ports _ _

theorem sweep_fwd {I : List Nat} {l : Learn.Cfg} {st st' : Learn.St} {now : Int} {vid : Nat} {ms : List OfMsg}
    (h : Learn.sweep l st now vid = some (ms, st')) : ∀ m ∈ ms, FwdMsg I m := by
  unfold Learn.sweep at h
  obtain ⟨x, _, e⟩ := Option.map_eq_some_iff.1 h
  simp only [Prod.mk.injEq] at e
  rw [← e.1]
  intro m hm
  split at hm
  · simp at hm
  · obtain ⟨y, _, hm⟩ := List.mem_flatMap.1 hm
    exact deleteHost_fwd m hm

theorem portDelete_fwd {I : List Nat} {l : Learn.Cfg} {st st' : Learn.St} {n : Nat} {ms : List OfMsg}
    (h : Learn.portDelete l st n = some (ms, st')) : ∀ m ∈ ms, FwdMsg I m := by
  unfold Learn.portDelete at h
  split at h
  · cases h; simp
  · obtain ⟨x, _, e⟩ := Option.map_eq_some_iff.1 h
    simp only [Prod.mk.injEq] at e
    rw [← e.1]
    intro m hm
    unfold Learn.delHostFlows at hm
    cases hh : l.hairpin with
    | none =>
      rw [hh] at hm
      simp only [List.append_nil, List.mem_cons, List.not_mem_nil, or_false] at hm
      rcases hm with rfl | rfl <;> exact fwd_del
    | some t =>
      rw [hh] at hm
      simp only [List.mem_append, List.mem_cons, List.not_mem_nil, or_false] at hm
      rcases hm with (rfl | rfl) | rfl <;> exact fwd_del

theorem portDown_fwd {I : List Nat} {l : Learn.Cfg} {n : Nat} : ∀ m ∈ Learn.portDown l n, FwdMsg I m := by
  intro m hm
  unfold Learn.portDown at hm
  split at hm
  · cases hm
  · unfold Learn.delHostFlows at hm
    cases hh : l.hairpin with
    | none =>
      rw [hh] at hm
      simp only [List.append_nil, List.mem_cons, List.not_mem_nil, or_false] at hm
      rcases hm with rfl | rfl <;> exact fwd_del
    | some t =>
      rw [hh] at hm
      simp only [List.mem_append, List.mem_cons, List.not_mem_nil, or_false] at hm
      rcases hm with (rfl | rfl) | rfl <;> exact fwd_del

/-! ## Flooding -/

theorem floodRule_fwd {I : List Nat} {f : Flood.FCfg} {cmd : FlowCmd} {items : List MatchItem} {prio : Nat} {as : List Action} :
    FwdMsg I (Flood.floodRule f cmd items prio as) := fun _ => fwd_trim fwd_apply

theorem floodRules_fwd {I : List Nat} {f : Flood.FCfg} {v : Flood.FVlan} {cs mo : Bool} :
    ∀ m ∈ Flood.floodRules f v cs mo, FwdMsg I m := by
  intro m hm
  simp only [Flood.floodRules, List.mem_append] at hm
  rcases hm with hm | hm
  · unfold Flood.multioutRules at hm
    obtain ⟨r, _, hm⟩ := List.mem_flatMap.1 hm
    unfold Flood.maskRules at hm
    split at hm
    · obtain ⟨q, _, hm⟩ := List.mem_flatMap.1 hm
      unfold Flood.combinatorialRule at hm
      simp only at hm
      split at hm
      · simp at hm
      · simp only [List.mem_singleton] at hm
        rw [hm]; exact floodRule_fwd
    · rcases List.mem_append.1 hm with hm | hm
      · split at hm
        · simp at hm
        · simp only [List.mem_singleton] at hm
          rw [hm]; exact floodRule_fwd
      · obtain ⟨q, _, hm⟩ := List.mem_flatMap.1 hm
        unfold Flood.besideVlan at hm
        simp only at hm
        split at hm
        · simp at hm
        · split at hm
          · split at hm
            · simp at hm
            · simp only [List.mem_singleton] at hm
              rw [hm]; exact fwd_del
          · simp only [List.mem_singleton] at hm
            rw [hm]; exact floodRule_fwd
  · split at hm
    · simp only [Flood.groupRules, List.mem_append, Flood.groupAdd, List.mem_cons, List.not_mem_nil, or_false] at hm
      rcases hm with ((rfl | rfl) | (rfl | rfl)) | hm
      · exact trivial
      · exact trivial
      · exact trivial
      · exact trivial
      · obtain ⟨r, _, rfl⟩ := List.mem_map.1 hm
        exact floodRule_fwd
    · simp at hm

/-! ## Routing -/

theorem fib_rank {fib : Tbl} (h : fib = .ipv4Fib ∨ fib = .ipv6Fib) : rank fib < 8 ∧ fib ≠ .copro := by
  rcases h with rfl | rfl <;> exact ⟨by decide, by decide⟩

theorem fib_vip {c : Conf} {fib : Tbl} {r : Route.Mgr} (w : RouteWired c fib r) : r.fib.id < r.vip.id ∧ r.vip.id ∈ ids c := by
  rw [w.fibT, w.vipT]
  have hv : included c .vip = true := by
    have := w.has
    rcases w.which with e | e <;> rw [e] at this
    · have this : c.ipv4 = true := this
      simp [included, this]
    · have this : c.ipv6 = true := this
      simp [included, this]
  exact idOf_fwd w.has hv (fib_rank w.which).1 (fun q => (fib_rank w.which).2 q.1)

theorem routeFlows_fwd {c : Conf} {fib : Tbl} {r : Route.Mgr} (w : RouteWired c fib r) {v : Route.Vlan} {dst : Route.Net}
    {mac : Nat} {u : Bool} : ∀ m ∈ Route.Mgr.addResolved r v dst mac u, FwdMsg (ids c) m := by
  intro m hm
  rcases List.mem_append.1 hm with hm | hm
  · split at hm
    · obtain ⟨_, _, rfl⟩ := List.mem_map.1 hm
      exact fwd_del
    · simp at hm
  · obtain ⟨_, _, rfl⟩ := List.mem_map.1 hm
    refine fwd_add ?_
    intro n hn
    simp [Route.Mgr.acceptL2] at hn
    rw [hn, w.l2, w.fibT]
    exact out_fwd w.has (by have := (fib_rank w.which).1; omega)

theorem blackhole_fwd {I : List Nat} {r : Route.Mgr} {v : Route.Vlan} {ip hard : Nat} :
    ∀ m ∈ Route.Mgr.blackhole r v ip hard, FwdMsg I m := by
  intro m hm
  obtain ⟨_, _, rfl⟩ := List.mem_map.1 hm
  exact fwd_add (fun n hn => by simp at hn)

theorem vips_fwd {c : Conf} {fib : Tbl} {r : Route.Mgr} (w : RouteWired c fib r) {v : Route.Vlan} :
    ∀ m ∈ Route.Mgr.addVlan r v, FwdMsg (ids c) m := by
  intro m hm
  obtain ⟨x, _, hm⟩ := List.mem_flatMap.1 hm
  rcases List.mem_cons.1 hm with rfl | hm
  · exact fwd_add (fwd_goto (fib_vip w))
  · split at hm
    · obtain ⟨_, _, rfl⟩ := List.mem_map.1 hm
      exact fwd_add (fwd_goto (fib_vip w))
    · simp at hm

/-! ## All of it -/

theorem idOf_eq {c : Conf} {t : TableConfig} (h : t ∈ tables c) : idOf c t.name = t.id := by
  obtain ⟨x, hx⟩ := exists_table (mem_tables h).1
  have e := names_inj (table_mem hx).1 h (table_mem hx).2
  simp [idOf, hx, e]

/-- **Every message sends packets forward only**, for every configuration of tables. -/
theorem sent_forward {c : Conf} {m : OfMsg} (h : Sent c m) : FwdMsg (ids c) m := by
  cases h with
  | @defaults t m ht hd =>
    unfold defaultFlow at hd
    cases hmi : t.miss with
    | none =>
      rw [hmi] at hd
      cases hd
      exact fwd_drop
    | some k =>
      rw [hmi] at hd
      obtain ⟨i, hi, rfl⟩ := Option.map_eq_some_iff.1 hd
      have hb : (table c t.name).bind (fun x => x.miss) = some k := by
        obtain ⟨x, hx⟩ := exists_table (mem_tables ht).1
        have e := names_inj (table_mem hx).1 ht (table_mem hx).2
        simp [hx, e, hmi]
      obtain ⟨n, rfl, h1⟩ := good_fwd (site_forward (.miss t.name k (mem_tables ht).1 hb)) hi
      rw [idOf_eq ht] at h1
      exact fwd_add (fwd_goto h1)
  | unknown hu =>
    obtain ⟨i, hi, rfl⟩ := Option.map_eq_some_iff.1 hu
    obtain ⟨n, rfl, h1⟩ := good_fwd (site_forward .ethSrc) hi
    refine fwd_add ?_
    intro k hk
    simp at hk
    rw [hk]; exact h1
  | @portVlan v m hv hu =>
    obtain ⟨i, hi, rfl⟩ := Option.map_eq_some_iff.1 hu
    have hs : Site c .vlan (goto c .vlan (forwardingTable c v)) := by
      unfold forwardingTable
      by_cases q : v.aclsIn = true
      · rw [if_pos q]; exact .portVlanAcl (hv q)
      · rw [if_neg q]; exact .portVlan
    obtain ⟨n, rfl, h1⟩ := good_fwd (site_forward hs) hi
    refine fwd_add ?_
    intro k hk
    simp at hk
    rw [hk]; exact h1
  | stackPort hu =>
    obtain ⟨i, hi, rfl⟩ := Option.map_eq_some_iff.1 hu
    obtain ⟨n, rfl, h1⟩ := good_fwd (site_forward .stackPort) hi
    exact fwd_add (fwd_goto h1)
  | learn w h hm => exact rcvPacket_fwd w h m hm
  | sweep _ h hm => exact sweep_fwd h m hm
  | portGone _ h hm => exact portDelete_fwd h m hm
  | portDown _ hm => exact portDown_fwd m hm
  | aclInit w hn h hm => exact initTables_fwd w hn h m hm
  | aclPort w hn h hm => exact coldStartPort_fwd w hn h m hm
  | aclVlan w hn h hm => exact addVlan_fwd w hn h m hm
  | mac w =>
    refine fwd_add (fwd_goto ?_)
    rw [w.port, w.toVlan]
    exact idOf_fwd w.has rfl (by decide) (by decide)
  | macAcl w hn h hm => exact addPortAcl_fwd w hn h _ hm
  | eapol w hm =>
    simp only [Dot1x.flowPair, List.mem_cons, List.not_mem_nil, or_false] at hm
    rcases hm with rfl | rfl <;> exact fwd_add fwd_apply
  | route w hm => exact routeFlows_fwd w m hm
  | blackhole _ hm => exact blackhole_fwd m hm
  | vips w hm => exact vips_fwd w m hm
  | flood hm => exact floodRules_fwd m hm
  | reserved hm =>
    obtain ⟨_, _, rfl⟩ := List.mem_map.1 hm
    exact fwd_drop
  | delete h =>
    intro q
    rcases h with h | h <;> rw [h] at q <;> simp at q
  | group => exact trivial
  | meter => exact trivial
  | config => exact trivial
  | tfm => exact trivial
  | packetOut => exact trivial
  | barrier => exact trivial

/-- A switch without flows. -/
def emptySwitch : Switch := ⟨fun _ => none, fun _ => none, fun _ => none⟩

theorem exec_bounded {sw : Switch} {m : OfMsg} (h : Bounded sw) : Bounded (sw.exec m) := by
  obtain ⟨N, hN⟩ := h
  have keep : ∀ (s : Slot) (q : Body → Bool) (b : Body), (sw.flows s).filter q = some b → s.priority ≤ N := by
    intro s q b hq
    rw [Option.filter_eq_some_iff] at hq
    exact hN s b hq.1
  cases m with
  | flow f =>
    refine ⟨max N f.priority, ?_⟩
    intro s b e
    have e : (OfMsg.flow f).onFlow s (sw.flows s) = some b := e
    cases hc : f.cmd with
    | add =>
      simp only [OfMsg.onFlow, hc] at e
      by_cases hs : f.slot = s
      · rw [← hs]; exact Nat.le_max_right _ _
      · rw [if_neg hs] at e
        have := hN s b e
        omega
    | modifyStrict =>
      simp only [OfMsg.onFlow, hc] at e
      by_cases hs : f.slot = s
      · rw [← hs]; exact Nat.le_max_right _ _
      · rw [if_neg hs] at e
        have := hN s b e
        omega
    | delete =>
      simp only [OfMsg.onFlow, hc] at e
      have := keep s _ b e
      omega
    | deleteStrict =>
      simp only [OfMsg.onFlow, hc] at e
      have := keep s _ b e
      omega
  | _ => exact ⟨N, fun s b e => keep s _ b e⟩

theorem execAll_bounded {sw : Switch} {ms : List OfMsg} (h : Bounded sw) : Bounded (sw.execAll ms) := by
  induction ms generalizing sw with
  | nil => exact h
  | cons m ms ih => exact ih (exec_bounded h)

/-- **Processing of any packet terminates** (C49): for every configuration of tables and every history of messages of the
managers to a switch without flows, any packet entering any table is processed to the end, the tables it visits have larger
and larger ids, all of them are tables that exist, and there are no more of them than tables. -/
theorem processing_terminates {c : Conf} {ms : List OfMsg} (h : ∀ m ∈ ms, Sent c m) (t : Nat) (p : Pkt) :
    (∃ es, Proc (emptySwitch.execAll ms) t p es) ∧
    ∀ w x, Way (emptySwitch.execAll ms) (x :: w) →
      ((x :: w).map Prod.fst).Pairwise (· < ·) ∧ (∀ y ∈ w, ∃ q ∈ tables c, y.1 = q.id) ∧ w.length ≤ (tables c).length := by
  have hf : Forward (ids c) (emptySwitch.execAll ms) :=
    execAll_forward (fun s b e => by simp [emptySwitch] at e) (fun m hm => sent_forward (h m hm))
  refine ⟨terminates hf (execAll_bounded ⟨0, fun s b e => by simp [emptySwitch] at e⟩) t p, ?_⟩
  intro w x hw
  refine ⟨(way_bounded hf hw).1, ?_, ?_⟩
  · intro y hy
    obtain ⟨q, hq, e⟩ := List.mem_map.1 ((way_increasing hf hw).1 y hy).2
    exact ⟨q, hq, e.symm⟩
  · simpa [ids] using (way_bounded hf hw).2

/-- **No packet falls through**: once the default rules of all tables are there, a packet that is in a table that exists is
always taken by some rule. -/
theorem default_catches {c : Conf} {t : TableConfig} (h : t ∈ tables c) : ∃ m, defaultFlow c t = some m ∧
    ∀ sw p, ∃ s b, ((sw : Switch).exec m).flows s = some b ∧ s.table = t.id ∧ hitsAll s.items p = true := by
  have hd : ∃ inst, defaultFlow c t = some ((Table.mk t.id 0).flowadd [] 0 inst) := by
    unfold defaultFlow
    cases hmi : t.miss with
    | none => exact ⟨[], rfl⟩
    | some k =>
      have hb : (table c t.name).bind (fun x => x.miss) = some k := by
        obtain ⟨x, hx⟩ := exists_table (mem_tables h).1
        have e := names_inj (table_mem hx).1 h (table_mem hx).2
        simp [hx, e, hmi]
      obtain ⟨_, _, _, d, _, e, _⟩ := site_forward (.miss t.name k (mem_tables h).1 hb)
      exact ⟨[.goto d.id], by simp only [e, Option.map_some]⟩
  obtain ⟨inst, hi⟩ := hd
  refine ⟨_, hi, ?_⟩
  intro sw p
  refine ⟨⟨t.id, 0, []⟩, ⟨trimInst inst, 0, 0, 0⟩, ?_, rfl, rfl⟩
  simp [Switch.exec, Table.flowadd, OfMsg.onFlow, FlowMod.slot, FlowMod.body]

end Faucet.Pipeline
