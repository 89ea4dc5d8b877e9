import Verif.AclSw.Packets

/-! # ACLs of ports on a switch: the invariant -/

namespace Faucet.AclSw
open Faucet.OF Faucet.Acl

variable {c : SCfg} {enc : Enc} {cfgs : AclsOf → Prop} {ok : Pkt → Prop}

/-- What the conditions on ACLs say for a port. -/
theorem port_ok {acls : AclsOf} {p : L2.LPort} (h : AclsGood (acls p.number)) : PortOk (aport acls p) := ⟨h.ok, rfl⟩

theorem adds_in_order {ms : List OfMsg} (h : ∀ x ∈ ms, ∃ f, x = .flow f ∧ f.cmd = .add) : FlowReorder.deletesFirst ms = ms := by
  have hd : ∀ x ∈ ms, FlowReorder.isDeletion x = false := by
    intro x hx
    obtain ⟨f, rfl, hf⟩ := h x hx
    simp [FlowReorder.isDeletion, hf]
  unfold FlowReorder.deletesFirst
  rw [List.filter_eq_nil_iff.2 (fun x hx => by rw [hd x hx]; decide), List.filter_eq_self.2 (fun x hx => by rw [hd x hx]; rfl)]
  rfl

theorem dels_in_order {ds ms : List OfMsg} (hd : ∀ x ∈ ds, FlowReorder.isDeletion x = true) (h : ∀ x ∈ ms, ∃ f, x = .flow f ∧ f.cmd = .add) :
    FlowReorder.deletesFirst (ds ++ ms) = ds ++ ms := by
  have hm := adds_in_order h
  have hd' : ∀ x ∈ ms, FlowReorder.isDeletion x = false := by
    intro x hx
    obtain ⟨f, rfl, hf⟩ := h x hx
    simp [FlowReorder.isDeletion, hf]
  unfold FlowReorder.deletesFirst
  rw [List.filter_append, List.filter_append, List.filter_eq_self.2 hd,
    List.filter_eq_nil_iff.2 (fun x hx => by rw [hd' x hx]; decide),
    List.filter_eq_nil_iff.2 (fun x hx => by rw [hd x hx]; decide), List.filter_eq_self.2 (fun x hx => by rw [hd' x hx]; rfl)]
  simp

theorem delPort_dels {q : Port} : ∀ x ∈ delPort c.mgr q, FlowReorder.isDeletion x = true := by
  intro x hx
  obtain ⟨t, -, rfl⟩ := mem_delPort hx
  rfl

abbrev SlicedBy (c : SCfg) (enc : Enc) (inst : PortCfg) (sw : Switch) : Prop :=
  Sliced 0 inPortItem (fun n => portFlows enc c.mgr (inst n)) sw

theorem sliced_congr {cfg : Nat → List FlowMod} {a b : Switch} (h : ∀ s : Slot, s.table = 0 → b.flows s = a.flows s)
    (hs : Sliced 0 inPortItem cfg a) : Sliced 0 inPortItem cfg b where
  good := hs.good
  flows := fun n p hn s b' ht => by rw [h s ht]; exact hs.flows n p hn s b' ht
  default := fun s b' hb ht => hs.default s b' (by rw [← h s ht]; exact hb) ht

theorem up_sliced (he : EncOk enc) {sw : Switch} {inst : PortCfg} {q : Port} (hok : PortOk q)
    (hc : inst q.number = none ∨ inst q.number = some q) {ms : List OfMsg} (hm : addPort enc c.mgr q = some ms)
    (hs : SlicedBy c enc inst sw) : SlicedBy c enc (setPort inst q.number (some q)) (sw.execAll ms) := by
  have h0 : c.aclTable.id = 0 := acl_zero c
  have hst := PortStep.up (enc := enc) (m := c.mgr) (sw := sw) (cfg := inst) hok hc hm
  have := port_step_sliced he c.mgr c.aclTable rfl hst (by rw [h0]; exact hs)
  rw [h0] at this
  rw [adds_in_order (portFlows_good he c.mgr c.aclTable rfl q hok ms hm).2] at this
  exact this

theorem outputOnly_flows {q : Port} (h : q.outputOnly = true) : portFlows enc c.mgr (some q) = [] := by
  have : portAclsAllowed c.mgr q = none := by
    unfold portAclsAllowed
    rw [h]
    simp
  simp [portFlows, addPort, this, flowsOf]

theorem setPort_flows (inst : PortCfg) (n : Nat) (o : Option Port) (h : portFlows enc c.mgr o = portFlows enc c.mgr (inst n)) :
    (fun i => portFlows enc c.mgr (setPort inst n o i)) = fun i => portFlows enc c.mgr (inst i) := by
  funext i
  unfold setPort
  split
  · rename_i hi; rw [hi, h]
  · rfl

theorem down_sliced (he : EncOk enc) {sw : Switch} {inst : PortCfg} {q : Port} (hc : inst q.number = none ∨ inst q.number = some q)
    (hs : SlicedBy c enc inst sw) : SlicedBy c enc (setPort inst q.number none) (sw.execAll (delPort c.mgr q)) := by
  have h0 : c.aclTable.id = 0 := acl_zero c
  have hord : FlowReorder.deletesFirst (delPort c.mgr q) = delPort c.mgr q := by
    have := dels_in_order (ds := delPort c.mgr q) (ms := []) delPort_dels (fun x hx => absurd hx List.not_mem_nil)
    simpa using this
  -- if the port has no rules, the delete is as good as one for a port that has none
  rcases hc with hc | hc
  · show Sliced 0 inPortItem (fun i => portFlows enc c.mgr (setPort inst q.number none i)) _
    rw [setCfg_port]
    have hpf : portFlows enc c.mgr none = [] := rfl
    rw [hpf, ← hord]
    refine sliced_step keys_port hs q.number [] ⟨by simp, by simp, by simp, by simp, by simp⟩ _ ?_ (by simp) ?_ ?_ (Or.inr (Or.inl (by simp only [hc]; rfl)))
    · intro f hf
      obtain ⟨t', _, hx⟩ := mem_delPort hf
      simp only [Table.flowdel, OfMsg.flow.injEq] at hx
      rw [hx]
      simp
    · intro f hf hcmd _
      obtain ⟨t', _, hx⟩ := mem_delPort hf
      simp only [Table.flowdel, OfMsg.flow.injEq] at hx
      rw [hx] at hcmd
      simp at hcmd
    · rintro s b ht ⟨x, hx, hd, hk⟩
      obtain ⟨t', _, hx⟩ := mem_delPort hx
      rw [hx] at hk
      exact ((flowdel_kills rfl).1 hk).2
  · have hst := PortStep.down (enc := enc) (m := c.mgr) (sw := sw) (cfg := inst) hc
    have := port_step_sliced he c.mgr c.aclTable rfl hst (by rw [h0]; exact hs)
    rw [h0, hord] at this
    exact this

theorem change_sliced (he : EncOk enc) {sw : Switch} {inst : PortCfg} {q : Port} (hok : PortOk q)
    (hc : q.outputOnly = true → portFlows enc c.mgr (inst q.number) = []) {ms : List OfMsg} (hm : coldStartPort enc c.mgr q = some ms)
    (hs : SlicedBy c enc inst sw) : SlicedBy c enc (setPort inst q.number (some q)) (sw.execAll ms) := by
  have h0 : c.aclTable.id = 0 := acl_zero c
  cases ho : q.outputOnly with
  | false =>
    have hst := PortStep.acl (enc := enc) (m := c.mgr) (sw := sw) (cfg := inst) hok ho hm
    have := port_step_sliced he c.mgr c.aclTable rfl hst (by rw [h0]; exact hs)
    rw [h0] at this
    unfold coldStartPort at hm
    obtain ⟨as, ha, rfl⟩ := Option.map_eq_some_iff.1 hm
    rw [dels_in_order delPort_dels (portFlows_good he c.mgr c.aclTable rfl q hok as ha).2] at this
    exact this
  | true =>
    have hn : portAclsAllowed c.mgr q = none := by
      unfold portAclsAllowed
      rw [ho]
      simp
    have hms : ms = [] := by
      unfold coldStartPort addPort delPort at hm
      rw [hn] at hm
      simp at hm
      exact hm
    subst hms
    show Sliced 0 inPortItem _ sw
    rw [setPort_flows inst q.number (some q) (by rw [hc ho]; exact outputOnly_flows ho)]
    exact hs

/-- A state: `inst` are the ports that have their rules in the ACL table, `l` is the switch as it would be without that table. -/
structure Inv (c : SCfg) (enc : Enc) (cfgs : AclsOf → Prop) (s : Sys) (u : Nat → Bool) (inst : PortCfg) (l : Switch) : Prop where
  run : L2.Run c.l2 (fun k => L2.Wire k ∧ L2.Plain c.l2 k) ⟨s.l2.ctl, l, s.l2.seen⟩ u
  lifts : Lifts s.l2.sw l
  sliced : SlicedBy c enc inst s.l2.sw
  insts : ∀ n q, inst n = some q → ∃ p ∈ c.l2.ports, p.number = n ∧ q = aport s.acls p ∧ (addPort enc c.mgr q).isSome
  ups : ∀ p ∈ c.l2.ports, p.enabled = true → u p.number = true → inst p.number = some (aport s.acls p)
  eternal : Eternal s.l2.sw
  cfg : cfgs s.acls

theorem inst_cases (hw : c.l2.WF) {acls : AclsOf} {inst : PortCfg}
    (hi : ∀ n q, inst n = some q → ∃ p ∈ c.l2.ports, p.number = n ∧ q = aport acls p ∧ (addPort enc c.mgr q).isSome) {p : L2.LPort} (hp : p ∈ c.l2.ports) :
    inst (aport acls p).number = none ∨ inst (aport acls p).number = some (aport acls p) := by
  cases h : inst (aport acls p).number with
  | none => exact Or.inl rfl
  | some q =>
    obtain ⟨p', hp', hn, rfl, -⟩ := hi _ q h
    obtain rfl := L2.port_inj hw hp' hp hn
    exact Or.inr rfl

theorem addPorts_sliced (hw : c.l2.WF) (he : EncOk enc) {acls : AclsOf} (hg : ∀ n, AclsGood (acls n)) {ps : List L2.LPort} (hps : ∀ p ∈ ps, p ∈ c.l2.ports)
    {inst : PortCfg} (hi : ∀ n q, inst n = some q → ∃ p ∈ c.l2.ports, p.number = n ∧ q = aport acls p ∧ (addPort enc c.mgr q).isSome)
    {ms : List OfMsg} (hm : addPorts enc c acls ps = some ms) {sw : Switch} (hs : SlicedBy c enc inst sw) :
    ∃ inst', SlicedBy c enc inst' (sw.execAll ms) ∧ (∀ m ∈ ms, First m) ∧
      (∀ n q, inst' n = some q → ∃ p ∈ c.l2.ports, p.number = n ∧ q = aport acls p ∧ (addPort enc c.mgr q).isSome) ∧
      (∀ n, inst n ≠ none → inst' n = inst n) ∧ ∀ p ∈ ps, inst' p.number = some (aport acls p) := by
  induction ps generalizing inst ms sw with
  | nil =>
    obtain rfl := Option.some.inj hm
    exact ⟨inst, hs, fun m hm => absurd hm List.not_mem_nil, hi, fun _ _ => rfl, fun p hp => absurd hp List.not_mem_nil⟩
  | cons p ps ih =>
    unfold addPorts at hm
    obtain ⟨m1, h1, hm⟩ := Option.bind_eq_some_iff.1 hm
    obtain ⟨m2, h2, rfl⟩ := Option.map_eq_some_iff.1 hm
    have hp := hps p List.mem_cons_self
    have hok : PortOk (aport acls p) := port_ok (hg _)
    have hc := inst_cases hw hi hp
    have hs1 := up_sliced he hok hc h1 hs
    have hi1 : ∀ n q, setPort inst (aport acls p).number (some (aport acls p)) n = some q →
        ∃ p ∈ c.l2.ports, p.number = n ∧ q = aport acls p ∧ (addPort enc c.mgr q).isSome := by
      intro n q hq
      unfold setPort at hq
      split at hq
      · rename_i hn
        obtain rfl := Option.some.inj hq
        exact ⟨p, hp, hn.symm, rfl, by rw [h1]; rfl⟩
      · exact hi n q hq
    obtain ⟨inst', a1, a2, a3, a4, a5⟩ := ih (fun x hx => hps x (List.mem_cons_of_mem _ hx)) hi1 h2 hs1
    have hset : setPort inst (aport acls p).number (some (aport acls p)) p.number = some (aport acls p) := by
      exact if_pos rfl
    refine ⟨inst', ?_, ?_, a3, ?_, ?_⟩
    · have : sw.execAll (m1 ++ m2) = (sw.execAll m1).execAll m2 := by simp [Switch.execAll, List.foldl_append]
      rw [this]
      exact a1
    · intro m hm
      rcases List.mem_append.1 hm with hm | hm
      · exact addPort_first hok h1 m hm
      · exact a2 m hm
    · intro n hn
      by_cases hnp : n = (aport acls p).number
      · subst hnp
        rw [a4 _ (fun h => by
          have h : setPort inst (aport acls p).number (some (aport acls p)) p.number = none := h
          rw [hset] at h
          cases h)]
        rcases hc with hc | hc
        · exact absurd hc hn
        · rw [hc]; exact hset
      · have hsame : setPort inst (aport acls p).number (some (aport acls p)) n = inst n := by
          unfold setPort
          rw [if_neg hnp]
        rw [a4 n (by rw [hsame]; exact hn), hsame]
    · intro x hx
      rcases List.mem_cons.1 hx with rfl | hx
      · rw [a4 _ (by rw [hset]; simp), hset]
      · exact a5 x hx

/-- A cold start. -/
theorem connect_sliced (hw : c.l2.WF) (he : EncOk enc) {acls : AclsOf} (hg : ∀ n, AclsGood (acls n)) {sh : List OfMsg → List OfMsg} {bar : Bool}
    {d : Nat → L2.Dyn} {now : Int} {up : List Nat} {lag : Nat → L2.LagChange} {out am : List OfMsg}
    (hout : FlowReorder.reorder sh bar (c.l2.connectMsgs d up lag) = some out) (ham : c.aclMsgs enc acls (.connect now up lag) = some am) (sw : Switch) :
    ∃ inst, SlicedBy c enc inst ((sw.execAll (out.map OfMsg.shift)).execAll am) ∧ (∀ m ∈ am, First m) ∧
      Eternal ((sw.execAll (out.map OfMsg.shift)).execAll am) ∧
      (∀ n q, inst n = some q → ∃ p ∈ c.l2.ports, p.number = n ∧ q = aport acls p ∧ (addPort enc c.mgr q).isSome) ∧
      ∀ p ∈ c.l2.ports, p.enabled = true → up.contains p.number = true → inst p.number = some (aport acls p) := by
  unfold SCfg.aclMsgs at ham
  obtain ⟨ms, hms, rfl⟩ := Option.map_eq_some_iff.1 ham
  have h0 : c.aclTable.id = 0 := acl_zero c
  have hz : ∀ s : Slot, s.table = 0 → (sw.execAll (out.map OfMsg.shift)).flows s = none := fun s hs => connect_zero hout sw hs
  have hdrop : First (c.aclTable.flowdrop [] 0) := ⟨_, rfl, h0, rfl, rfl⟩
  have hsl : SlicedBy c enc (fun _ => none) ((sw.execAll (out.map OfMsg.shift)).exec (c.aclTable.flowdrop [] 0)) := by
    refine sliced_init ?_
    intro s b hb hs
    have hb : (c.aclTable.flowdrop [] 0).onFlow s ((sw.execAll (out.map OfMsg.shift)).flows s) = some b := hb
    rw [hz s hs] at hb
    simp only [Table.flowdrop, Table.flowadd, OfMsg.onFlow] at hb
    split at hb
    · rename_i hsl
      obtain rfl := Option.some.inj hb
      exact ⟨by rw [← hsl]; rfl, rfl⟩
    · cases hb
  obtain ⟨inst, a1, a2, a3, -, a5⟩ := addPorts_sliced hw he hg (ps := c.started up)
    (fun p hp => (List.mem_filter.1 hp).1) (inst := fun _ => none) (fun n q h => by cases h) hms hsl
  have hfirst : ∀ m ∈ c.aclTable.flowdrop [] 0 :: ms, First m := by
    intro m hm
    rcases List.mem_cons.1 hm with rfl | hm
    · exact hdrop
    · exact a2 m hm
  refine ⟨inst, a1, hfirst, first_eternal hfirst ?_, a3, ?_⟩
  · intro sl b hb hs
    rw [hz sl hs] at hb
    cases hb
  · intro p hp hen hup
    exact a5 p (List.mem_filter.2 ⟨hp, by rw [hup, hen]; rfl⟩)

/-- **The ACL table decides.** -/
theorem decides (he : EncOk enc) {s : Sys} {u : Nat → Bool} {inst : PortCfg} {l : Switch} (hi : Inv c enc cfgs s u inst l)
    (hg : ∀ n, AclsGood (s.acls n)) {k : Pkt} {n : Nat} (hn : k.hdr fInPort = some n) {es : List Emit} (hes : Proc s.l2.sw 0 k es) :
    (es = [] ∧ (inst n = none ∨ ∃ p ∈ c.l2.ports, p.number = n ∧ p.outputOnly = true)) ∨
    ∃ p ∈ c.l2.ports, p.number = n ∧ ∃ cs o, Verdict enc (s.acls n) n k cs o ∧
      ((o = none ∧ es = cs) ∨ ∃ k' rest, o = some k' ∧ es = cs ++ rest ∧ Proc l 0 k' rest) := by
  have hh : (inPortItem n).hits k = true := port_hits.2 hn
  have h0 : c.aclTable.id = 0 := acl_zero c
  cases hc : inst n with
  | none => exact Or.inl ⟨slice_empty hi.sliced n (by simp only [hc]; rfl) k hh es hes, Or.inl rfl⟩
  | some q =>
    obtain ⟨p, hp, hpn, rfl, hsome⟩ := hi.insts n q hc
    cases ho : p.outputOnly with
    | true =>
      refine Or.inl ⟨slice_empty hi.sliced n ?_ k hh es hes, Or.inr ⟨p, hp, hpn, ho⟩⟩
      simp only [hc]
      exact outputOnly_flows ho
    | false =>
      right
      refine ⟨p, hp, hpn, ?_⟩
      obtain ⟨ms, hms⟩ := Option.isSome_iff_exists.1 hsome
      have hallow : portAclsAllowed c.mgr (aport s.acls p) = some c.aclTable := by
        unfold portAclsAllowed aport
        rw [ho]
        rfl
      have hcfg : portFlows enc c.mgr (inst n) = flowsOf ms := by simp [portFlows, hc, hms]
      unfold addPort at hms
      rw [hallow] at hms
      simp only at hms
      have hacl : (aport s.acls p).aclsIn = s.acls n := by rw [← hpn]; rfl
      by_cases hnil : s.acls n = []
      · rw [if_neg (by rw [hacl, hnil]; simp)] at hms
        have hd : (aport s.acls p).dot1x = false := rfl
        rw [hd] at hms
        simp only [Bool.not_false, if_true] at hms
        obtain rfl := Option.some.inj hms
        have hpass := slice_pass hi.sliced n _ c.mgr.toVlan rfl (by rw [← hpn]; rfl) hcfg k hh es hes
        exact ⟨[], some k, .noAcls hnil, Or.inr ⟨k, es, rfl, rfl, hi.lifts.proc hpass 0 (to_vlan c)⟩⟩
      · rw [if_pos (by rw [hacl]; exact hnil)] at hms
        have hok' := (hg n).ok hnil
        have hsl : Sliced (portCtx c.mgr c.aclTable (aport s.acls p)).table.id inPortItem (fun i => portFlows enc c.mgr (inst i)) s.l2.sw := by
          show Sliced c.aclTable.id _ _ _
          rw [h0]
          exact hi.sliced
        have hpr : Proc s.l2.sw (portCtx c.mgr c.aclTable (aport s.acls p)).table.id k es := by
          show Proc s.l2.sw c.aclTable.id k es
          rw [h0]
          exact hes
        rw [hacl] at hms
        have hexact : (portCtx c.mgr c.aclTable (aport s.acls p)).exact = false := by
          show firstExact (s.acls p.number) = false
          rw [hpn]
          exact hok'.inOrder
        have hdec := slice_decides he (portCtx c.mgr c.aclTable (aport s.acls p)) hexact rfl (s.acls n) hok' inPortItem n ms hms
          (fun i => portFlows enc c.mgr (inst i)) hcfg s.l2.sw hsl k hh es hpr
        have hpv : (portCtx c.mgr c.aclTable (aport s.acls p)).port = some n := by rw [← hpn]; rfl
        rw [hpv] at hdec
        rcases first_or_none enc (some n) none (allRules (s.acls n)) k with ⟨r, hr⟩ | hnone
        · obtain ⟨h1, h2⟩ := hdec.1 r hr
          cases ha : r.actions with
          | none => exact ⟨[], none, .noActions hnil hr ha, Or.inl ⟨rfl, h1 ha⟩⟩
          | some a =>
            have hrok := (hg n).rules r (first_mem hr) a ha
            obtain ⟨rest, e1, e2, e3⟩ := h2 a ha hrok.direct
            by_cases hsay : SaysAllow a
            · refine ⟨_, _, .allow hnil hr ha hsay, Or.inr ⟨_, rest, rfl, by rw [e1, List.append_assoc], ?_⟩⟩
              exact hi.lifts.proc (e2 c.mgr.toVlan (.allow hsay hrok.noForce)) 0 (to_vlan c)
            · refine ⟨_, _, .stop hnil hr ha hsay, Or.inl ⟨rfl, ?_⟩⟩
              have hre : rest = [] := e3 (fun t ht => hsay (goes_on hrok ht).1)
              rw [e1, hre, List.append_nil]
        · exact ⟨[], none, .noRule hnil hnone, Or.inl ⟨rfl, hdec.2 hnone⟩⟩

theorem inv_start (hw : c.l2.WF) (he : EncOk enc) (hg : ∀ a, cfgs a → ∀ n, AclsGood (a n)) {sw0 : Switch} {acls : AclsOf} {now : Int} {up : List Nat}
    {lag : Nat → L2.LagChange} {ms out am : List OfMsg} {ctl : L2.Ctl} {sh : List OfMsg → List OfMsg} {bar : Bool} (ha : cfgs acls) (hsh : ∀ l, (sh l).Perm l)
    (hr : c.l2.react L2.Ctl.init (.connect now up lag) = some (ms, ctl)) (hout : FlowReorder.reorder sh bar ms = some out)
    (ham : c.aclMsgs enc acls (.connect now up lag) = some am) :
    ∃ inst l, Inv c enc cfgs ⟨⟨ctl, (Switch.execAll sw0 (out.map OfMsg.shift)).execAll am, fun _ => False⟩, acls⟩ (fun i => up.contains i) inst l := by
  have hrun := L2.Run.start (ok := fun k => L2.Wire k ∧ L2.Plain c.l2 k) (sw0 := ⟨fun _ => none, sw0.groups, sw0.meters⟩) hsh hr hout
  have hr' := hr
  simp only [L2.Cfg.react, Option.some.injEq, Prod.mk.injEq] at hr'
  obtain ⟨rfl, -⟩ := hr'
  obtain ⟨inst, h1, h2, h3, h4, h5⟩ := connect_sliced hw he (hg acls ha) hout ham sw0
  exact ⟨inst, _, hrun, first_lifts h2 (connect_lifts hout sw0), h1, h4, h5, h3, ha⟩

theorem inv_event (hw : c.l2.WF) (hb : c.l2.Basic) (he : EncOk enc) (hg : ∀ a, cfgs a → ∀ n, AclsGood (a n)) {s : Sys} {u : Nat → Bool} {inst : PortCfg} {l : Switch}
    (hi : Inv c enc cfgs s u inst l) {ev : L2.Ev} {ms out am : List OfMsg} {ctl : L2.Ctl} {sh : List OfMsg → List OfMsg} {bar : Bool} (hsh : ∀ l, (sh l).Perm l)
    (hseen : ∀ now k, ev = .packetIn now k → s.l2.seen k) (hr : c.l2.react s.l2.ctl ev = some (ms, ctl))
    (hout : FlowReorder.reorder sh bar ms = some out) (ham : c.aclMsgs enc s.acls ev = some am) :
    ∃ inst l, Inv c enc cfgs ⟨⟨ctl, (s.l2.sw.execAll (out.map OfMsg.shift)).execAll am, s.l2.seen⟩, s.acls⟩ (ev.upAfter u) inst l := by
  have hrun := L2.Run.event hi.run hsh hseen hr hout
  have hl := hi.lifts.execAll out
  cases hcon : ev.isConnect with
  | true =>
    cases ev with
    | connect now up lag =>
      have hr' := hr
      simp only [L2.Cfg.react, Option.some.injEq, Prod.mk.injEq] at hr'
      obtain ⟨rfl, -⟩ := hr'
      obtain ⟨inst', h1, h2, h3, h4, h5⟩ := connect_sliced hw he (hg _ hi.cfg) hout ham s.l2.sw
      exact ⟨inst', _, hrun, first_lifts h2 hl, h1, h4, h5, h3, hi.cfg⟩
    | _ => simp [L2.Ev.isConnect] at hcon
  | false =>
    have hinv := L2.reach_inv hw hi.run.reach
    have hd := L2.run_inv hw hb hi.run
    have hmu := (L2.react_u (K := L2.Sys.Told ⟨s.l2.ctl, l, s.l2.seen⟩) hb hinv.cinv hinv.hosts hd.hosts (ev := ev)
      (fun now k hk => ⟨hinv.seen k (hseen now k hk), fun hgs => ⟨hgs, k, hseen now k hk, rfl⟩⟩) hcon hr).1
    have hall : ∀ m ∈ out, Late m := fun m hm => late_of_u hb (L2.out_u hsh hout trivial hmu m hm)
    have hzero : ∀ sl : Slot, sl.table = 0 → (s.l2.sw.execAll (out.map OfMsg.shift)).flows sl = s.l2.sw.flows sl :=
      fun sl hsl => shift_zero_all hall s.l2.sw hsl
    have hs1 := sliced_congr hzero hi.sliced
    have het : Eternal (s.l2.sw.execAll (out.map OfMsg.shift)) := fun sl b hb hsl => hi.eternal sl b (by rw [← hzero sl hsl]; exact hb) hsl
    have hsame : ∀ u' : Nat → Bool, ev.upAfter u = u' → (∀ p ∈ c.l2.ports, p.enabled = true → u' p.number = true → u p.number = true) → am = [] →
        ∃ inst l, Inv c enc cfgs ⟨⟨ctl, (s.l2.sw.execAll (out.map OfMsg.shift)).execAll am, s.l2.seen⟩, s.acls⟩ (ev.upAfter u) inst l := by
      rintro u' hu hup rfl
      refine ⟨inst, _, hrun, hl, hs1, hi.insts, ?_, het, hi.cfg⟩
      intro p hp hen hu'
      rw [hu] at hu'
      exact hi.ups p hp hen (hup p hp hen hu')
    cases ev with
    | connect => simp [L2.Ev.isConnect] at hcon
    | portUp now n lag =>
      cases hf : c.l2.find n with
      | none =>
        simp only [SCfg.aclMsgs, hf, Option.some.injEq] at ham
        refine hsame _ rfl ?_ ham.symm
        intro p hp _ hu
        simp only [L2.Ev.upAfter, Bool.or_eq_true, beq_iff_eq] at hu
        rcases hu with hu | hu
        · rw [← hu, L2.find_of_mem hw hp] at hf; cases hf
        · exact hu
      | some p =>
        obtain ⟨hp, hpn⟩ := L2.find_some hf
        simp only [SCfg.aclMsgs, hf] at ham
        cases hen : p.enabled with
        | false =>
          rw [hen] at ham
          refine hsame _ rfl ?_ (Option.some.inj ham).symm
          intro p' hp' hen' hu
          simp only [L2.Ev.upAfter, Bool.or_eq_true, beq_iff_eq] at hu
          rcases hu with hu | hu
          · rw [L2.port_inj hw hp' hp (hu.trans hpn.symm), hen] at hen'; cases hen'
          · exact hu
        | true =>
          rw [hen, if_pos rfl] at ham
          have hok : PortOk (aport s.acls p) := port_ok (hg _ hi.cfg _)
          have hfirst := addPort_first hok ham
          have hs2 := up_sliced he hok (inst_cases hw hi.insts hp) ham hs1
          refine ⟨_, _, hrun, first_lifts hfirst hl, hs2, ?_, ?_, first_eternal hfirst het, hi.cfg⟩
          · intro i q hq
            unfold setPort at hq
            split at hq
            · rename_i hn
              obtain rfl := Option.some.inj hq
              exact ⟨p, hp, hn.symm, rfl, by rw [ham]; rfl⟩
            · exact hi.insts i q hq
          · intro p' hp' hen' hu
            unfold setPort
            by_cases hpp : p'.number = (aport s.acls p).number
            · rw [if_pos hpp, L2.port_inj hw hp' hp hpp]
            · rw [if_neg hpp]
              refine hi.ups p' hp' hen' ?_
              simp only [L2.Ev.upAfter, Bool.or_eq_true, beq_iff_eq] at hu
              rcases hu with hu | hu
              · exact absurd (hu.trans hpn.symm) hpp
              · exact hu
    | portDown now n lag =>
      cases hf : c.l2.find n with
      | none =>
        simp only [SCfg.aclMsgs, hf, Option.some.injEq] at ham
        refine hsame _ rfl ?_ ham.symm
        intro p hp _ hu
        simp only [L2.Ev.upAfter, Bool.and_eq_true] at hu
        exact hu.2
      | some p =>
        obtain ⟨hp, hpn⟩ := L2.find_some hf
        simp only [SCfg.aclMsgs, hf, Option.some.injEq] at ham
        subst ham
        have hs2 := down_sliced he (inst_cases hw hi.insts hp) hs1
        refine ⟨_, _, hrun, first_lifts delPort_first hl, hs2, ?_, ?_, first_eternal delPort_first het, hi.cfg⟩
        · intro i q hq
          unfold setPort at hq
          split at hq
          · cases hq
          · exact hi.insts i q hq
        · intro p' hp' hen' hu
          simp only [L2.Ev.upAfter, Bool.and_eq_true, bne_iff_ne] at hu
          unfold setPort
          rw [if_neg (fun h => hu.1 (h.trans hpn))]
          exact hi.ups p' hp' hen' hu.2
    | _ => exact hsame u rfl (fun _ _ _ h => h) (Option.some.inj ham).symm

theorem inv_packet (hw : c.l2.WF) (he : EncOk enc) (hg : ∀ a, cfgs a → ∀ n, AclsGood (a n)) {s : Sys} {u : Nat → Bool} {inst : PortCfg} {l : Switch}
    (hi : Inv c enc cfgs s u inst l) {k : Pkt} (hk : Sound c enc cfgs k) {es : List Emit} (hes : Proc s.l2.sw 0 k es) :
    Inv c enc cfgs ⟨⟨s.l2.ctl, s.l2.sw, fun x => s.l2.seen x ∨ ∃ e ∈ es, e.port = portController ∧ x = L2.Emit.toPacketIn e⟩, s.acls⟩ u inst l := by
  have hrun : L2.Run c.l2 (fun k => L2.Wire k ∧ L2.Plain c.l2 k)
      ⟨s.l2.ctl, l, fun x => s.l2.seen x ∨ ∃ e ∈ es, e.port = portController ∧ x = L2.Emit.toPacketIn e⟩ u := by
    have hquiet : (∀ e ∈ es, e.port ≠ portController) → L2.Run c.l2 (fun k => L2.Wire k ∧ L2.Plain c.l2 k)
        ⟨s.l2.ctl, l, fun x => s.l2.seen x ∨ ∃ e ∈ es, e.port = portController ∧ x = L2.Emit.toPacketIn e⟩ u := by
      intro hq
      have : (fun x => s.l2.seen x ∨ ∃ e ∈ es, e.port = portController ∧ x = L2.Emit.toPacketIn e) = s.l2.seen := by
        funext x
        refine propext ⟨?_, Or.inl⟩
        rintro (h | ⟨e, he, hp, -⟩)
        · exact h
        · exact absurd hp (hq e he)
      rw [this]
      exact hi.run
    obtain ⟨n, hn⟩ := hk.port
    rcases decides he hi (hg _ hi.cfg) hn hes with ⟨rfl, -⟩ | ⟨p, hp, hpn, cs, o, hv, h⟩
    · exact hquiet (fun e he => absurd he List.not_mem_nil)
    · have htame := verdict_tame (hg _ hi.cfg n) hv
      have hreal : k.hdr fInPort ≠ some portController := by
        rw [hn, ← hpn]
        intro h
        have := hw.real p hp
        rw [Option.some.inj h] at this
        exact absurd this (by decide)
      have hcs := htame.1 hreal
      rcases h with ⟨-, rfl⟩ | ⟨k', rest, rfl, rfl, hrest⟩
      · exact hquiet hcs
      · have := L2.Run.packet hi.run (k := k') ⟨(htame.2 k' rfl).2 hk.wire, hk.plain _ _ _ _ hi.cfg hn hv⟩ hrest
        have heq : (fun x => s.l2.seen x ∨ ∃ e ∈ cs ++ rest, e.port = portController ∧ x = L2.Emit.toPacketIn e) =
            fun x => s.l2.seen x ∨ ∃ e ∈ rest, e.port = portController ∧ x = L2.Emit.toPacketIn e := by
          funext x
          refine propext ⟨?_, ?_⟩
          · rintro (h | ⟨e, he, hp, hx⟩)
            · exact Or.inl h
            · rcases List.mem_append.1 he with he | he
              · exact absurd hp (hcs e he)
              · exact Or.inr ⟨e, he, hp, hx⟩
          · rintro (h | ⟨e, he, hx⟩)
            · exact Or.inl h
            · exact Or.inr ⟨e, List.mem_append_right _ he, hx⟩
        rw [heq]
        exact this
  exact ⟨hrun, hi.lifts, hi.sliced, hi.insts, hi.ups, hi.eternal, hi.cfg⟩

theorem inv_timeout {s : Sys} {u : Nat → Bool} {inst : PortCfg} {l : Switch} (hi : Inv c enc cfgs s u inst l) {sl : Slot} {b : Body}
    (hf : s.l2.sw.flows sl = some b) (ht : b.hard ≠ 0 ∨ b.idle ≠ 0) :
    ∃ inst l, Inv c enc cfgs ⟨⟨s.l2.ctl, ⟨fun x => if x = sl then none else s.l2.sw.flows x, s.l2.sw.groups, s.l2.sw.meters⟩, s.l2.seen⟩, s.acls⟩ u inst l := by
  have hsl : sl.table ≠ 0 := by
    intro h
    obtain ⟨h1, h2⟩ := hi.eternal sl b hf h
    rcases ht with ht | ht
    · exact ht h1
    · exact ht h2
  obtain ⟨a, rfl⟩ := unshift_slot hsl
  have hz : ∀ x : Slot, x.table = 0 → (if x = a.shift then none else s.l2.sw.flows x) = s.l2.sw.flows x := by
    intro x hx
    rw [if_neg (fun h => hsl (by rw [← h]; exact hx))]
  have hfa := hf
  rw [hi.lifts.flows] at hfa
  obtain ⟨b', hb', rfl⟩ := Option.map_eq_some_iff.1 hfa
  have hrun := L2.Run.timeout hi.run hb' ht
  refine ⟨inst, _, hrun, ?_, sliced_congr hz hi.sliced, hi.insts, hi.ups, ?_, hi.cfg⟩
  · refine ⟨?_, hi.lifts.groups⟩
    intro x
    show (if x.shift = a.shift then none else s.l2.sw.flows x.shift) = Option.map Body.shift (if x = a then none else l.flows x)
    by_cases hx : x = a
    · rw [if_pos hx, if_pos (by rw [hx])]; rfl
    · rw [if_neg hx, if_neg (fun h => hx (Slot.shift_inj h))]; exact hi.lifts.flows x
  · intro x y hy hx
    refine hi.eternal x y ?_ hx
    have hy : (if x = a.shift then none else s.l2.sw.flows x) = some y := hy
    rw [hz x hx] at hy
    exact hy

theorem inv_change (hw : c.l2.WF) (he : EncOk enc) (hg : ∀ a, cfgs a → ∀ n, AclsGood (a n)) {s : Sys} {u : Nat → Bool} {inst : PortCfg} {l : Switch}
    (hi : Inv c enc cfgs s u inst l) {p : L2.LPort} (hp : p ∈ c.l2.ports) {new : List Acl.Acl} (hc : cfgs (setAcls s.acls p.number new)) {am : List OfMsg}
    (ham : coldStartPort enc c.mgr (aport (setAcls s.acls p.number new) p) = some am) :
    ∃ inst l, Inv c enc cfgs ⟨⟨s.l2.ctl, s.l2.sw.execAll am, s.l2.seen⟩, setAcls s.acls p.number new⟩ u inst l := by
  have hok : PortOk (aport (setAcls s.acls p.number new) p) := port_ok (hg _ hc _)
  have hout : (aport (setAcls s.acls p.number new) p).outputOnly = true → portFlows enc c.mgr (inst p.number) = [] := by
    intro ho
    rcases inst_cases hw hi.insts hp with h | h
    · have h : inst p.number = none := h
      rw [h]; rfl
    · have h : inst p.number = some (aport s.acls p) := h
      rw [h]
      exact outputOnly_flows ho
  have hs := change_sliced he hok hout ham hi.sliced
  obtain ⟨as, has, rfl⟩ := Option.map_eq_some_iff.1 ham
  have hfirst : ∀ m ∈ delPort c.mgr (aport (setAcls s.acls p.number new) p) ++ as, First m := by
    intro m hm
    rcases List.mem_append.1 hm with hm | hm
    · exact delPort_first m hm
    · exact addPort_first hok has m hm
  have hother : ∀ p' : L2.LPort, p'.number ≠ p.number → aport (setAcls s.acls p.number new) p' = aport s.acls p' := by
    intro p' hne
    unfold aport setAcls
    rw [if_neg hne]
  refine ⟨_, l, hi.run, first_lifts hfirst hi.lifts, hs, ?_, ?_, first_eternal hfirst hi.eternal, hc⟩
  · intro i q hq
    unfold setPort at hq
    split at hq
    · rename_i hn
      obtain rfl := Option.some.inj hq
      exact ⟨p, hp, hn.symm, rfl, by rw [has]; rfl⟩
    · rename_i hne
      obtain ⟨p', hp', rfl, rfl, h3⟩ := hi.insts i q hq
      exact ⟨p', hp', rfl, (hother p' hne).symm, h3⟩
  · intro p' hp' hen hu
    unfold setPort
    by_cases hpp : p'.number = (aport (setAcls s.acls p.number new) p).number
    · rw [if_pos hpp, L2.port_inj hw hp' hp hpp]
    · rw [if_neg hpp, hi.ups p' hp' hen hu, hother p' hpp]

/-- The invariant holds of reachable states. -/
theorem run_inv (hw : c.l2.WF) (hb : c.l2.Basic) (he : EncOk enc) (hg : ∀ a, cfgs a → ∀ n, AclsGood (a n)) (hok : ∀ k, ok k → Sound c enc cfgs k)
    {s : Sys} {u : Nat → Bool} (h : Run c enc cfgs ok s u) : ∃ inst l, Inv c enc cfgs s u inst l := by
  induction h with
  | start ha hsh hr hout ham => exact inv_start hw he hg ha hsh hr hout ham
  | event _ hsh hseen hr hout ham ih =>
    obtain ⟨inst, l, hi⟩ := ih
    exact inv_event hw hb he hg hi hsh hseen hr hout ham
  | packet _ hk hes ih =>
    obtain ⟨inst, l, hi⟩ := ih
    exact ⟨inst, l, inv_packet hw he hg hi (hok _ hk) hes⟩
  | timeout _ hf ht ih =>
    obtain ⟨inst, l, hi⟩ := ih
    exact inv_timeout hi hf ht
  | aclChange _ _ hp hc ham ih =>
    obtain ⟨inst, l, hi⟩ := ih
    exact inv_change hw he hg hi hp hc ham

end Faucet.AclSw
