import Verif.Routed.Walk

/-! # Invariants of runs of a switch that routes -/

namespace Faucet.Routed
open Faucet.OF
open Faucet.L2 (LPort URule UFlows MsgU DInv HostsOk SeenOk Wire Plain)
open Faucet.Learn (CInv)
open Faucet.Route (put cut slotAfter execAll_flows Puts)

variable {c : RCfg} {P : Route.Net → Prop}

/-- The switch has in its FIB what the routing state says it should have. -/
def FibAs (c : RCfg) (P : Route.Net → Prop) (st : Route.St) (running : Bool) (sw : Switch) : Prop :=
  ∃ F, Route.Inv c.mgr c.vlans P c.start st F ∧
    (running = true → ∀ sl, sl.table = c.l2.tfib → sl.items ≠ [] → sw.flows sl = F sl)

structure RInv (c : RCfg) (P : Route.Net → Prop) (u : Nat → Bool) (s : Sys) : Prop where
  l2 : DInv c.l2 u ⟨s.l2.ctl, c.base s.l2.sw, s.l2.seen⟩
  cinv : CInv c.l2.learn s.l2.ctl.learn
  hosts : HostsOk c.l2 s.l2.ctl.learn
  seen : ∀ x, s.l2.seen x → SeenOk c.l2 x
  rules : RFlows c s.l2.sw
  needed : ∀ sl, RNeeded c sl → s.l2.sw.flows sl ≠ none
  fib : FibAs c P s.st s.l2.ctl.running s.l2.sw

theorem dinv_congr {u : Nat → Bool} {ctl : L2.Ctl} {sw sw' : Switch} {seen : L2.PacketIn → Prop} (h : sw'.flows = sw.flows)
    (hd : DInv c.l2 u ⟨ctl, sw, seen⟩) : DInv c.l2 u ⟨ctl, sw', seen⟩ where
  flows := fun sl b hb => hd.flows sl b (by rw [← h]; exact hb)
  present := fun sl hn => by
    have := hd.present sl hn
    show sw'.flows sl ≠ none
    rw [h]; exact this
  dst := fun vid m e b hv he hb => hd.dst vid m e b hv he (by rw [← h]; exact hb)
  hosts := hd.hosts

theorem running_back {s s' : L2.Ctl} {ev : L2.Ev} {ms : List OfMsg} (hne : ev.isConnect = false) (h : c.l2.react s ev = some (ms, s'))
    (hr : s'.running = true) : s.running = true := by
  cases ev with
  | connect => simp [L2.Ev.isConnect] at hne
  | disconnect now lag =>
    simp only [L2.Cfg.react, Option.map_eq_some_iff, Prod.mk.injEq] at h
    obtain ⟨st, -, -, rfl⟩ := h
    simp at hr
  | packetIn now k =>
    simp only [L2.Cfg.react] at h
    split at h
    · simp only [Option.map_eq_some_iff] at h
      obtain ⟨x, -, h2⟩ := h
      simp only [L2.Ctl.withLearn, Prod.mk.injEq] at h2
      obtain ⟨-, rfl⟩ := h2
      exact hr
    · simp only [Option.some.injEq, Prod.mk.injEq] at h
      obtain ⟨-, rfl⟩ := h
      exact hr
  | expire now vid =>
    simp only [L2.Cfg.react] at h
    split at h
    · rename_i h'; exact h'
    · simp only [Option.some.injEq, Prod.mk.injEq] at h
      obtain ⟨-, rfl⟩ := h
      exact hr
  | portUp now j lag =>
    simp only [L2.Cfg.react] at h
    split at h
    · simp only [Option.some.injEq, Prod.mk.injEq] at h
      obtain ⟨-, rfl⟩ := h
      exact hr
    · simp only [Option.some.injEq, Prod.mk.injEq] at h
      obtain ⟨-, rfl⟩ := h
      exact hr
  | portDown now j lag =>
    simp only [L2.Cfg.react] at h
    split at h
    · simp only [Option.some.injEq, Prod.mk.injEq] at h
      obtain ⟨-, rfl⟩ := h
      exact hr
    · simp only [Option.some.injEq, Prod.mk.injEq] at h
      obtain ⟨-, rfl⟩ := h
      exact hr
  | lag j sel act =>
    simp only [L2.Cfg.react] at h
    split at h
    · split at h
      · simp only [Option.some.injEq, Prod.mk.injEq] at h
        obtain ⟨-, rfl⟩ := h
        exact hr
      · simp only [Option.some.injEq, Prod.mk.injEq] at h
        obtain ⟨-, rfl⟩ := h
        exact hr
    · simp only [Option.some.injEq, Prod.mk.injEq] at h
      obtain ⟨-, rfl⟩ := h
      exact hr
  | srcRemoved vid j m =>
    simp only [L2.Cfg.react, Option.map_eq_some_iff] at h
    obtain ⟨x, -, h2⟩ := h
    simp only [L2.Ctl.withLearn, Prod.mk.injEq] at h2
    obtain ⟨-, rfl⟩ := h2
    exact hr
  | dstRemoved now vid m =>
    simp only [L2.Cfg.react, Option.map_eq_some_iff] at h
    obtain ⟨x, -, h2⟩ := h
    simp only [L2.Ctl.withLearn, Prod.mk.injEq] at h2
    obtain ⟨-, rfl⟩ := h2
    exact hr

theorem fib_routing {sl : Slot} (h : sl.table = c.l2.tfib) (hi : sl.items ≠ []) : c.routing sl = true := routing_iff.2 (Or.inl ⟨Or.inl h, hi⟩)

/-- A cold start, whatever was there before. -/
theorem rinv_connect (ho : c.Ok) {ctl0 ctl : L2.Ctl} {sw : Switch} {seen : L2.PacketIn → Prop} {st : Route.St} {now : Int} {up : List Nat}
    {lag : Nat → L2.LagChange} {sh : List OfMsg → List OfMsg} (hsh : ∀ l, (sh l).Perm l) {bar : Bool} {ms out : List OfMsg}
    (hcinv : CInv c.l2.learn ctl0.learn) (hhosts : HostsOk c.l2 ctl0.learn) (hseen : ∀ x, seen x → SeenOk c.l2 x)
    (hr : c.l2.react ctl0 (.connect now up lag) = some (ms, ctl)) (hout : FlowReorder.reorder sh bar ms = some out)
    (hst : Route.Inv c.mgr c.vlans P c.start st c.start) :
    RInv c P (fun i => up.contains i) ⟨⟨ctl, (sw.execAll out).execAll (c.evMsgs (.connect now up lag)), seen⟩, st⟩ := by
  have hd := L2.dinv_connect ho.wf ho.basic (sw := sw) (seen := seen) hsh hr hout
  have hnone : ∀ sl, c.routing sl = true → (sw.execAll out).flows sl = none := by
    intro sl hs
    cases hf : (sw.execAll out).flows sl with
    | none => rfl
    | some b =>
      have := urule_not_routing ho (hd.flows sl b hf)
      rw [hs] at this; cases this
  have hbase : (c.base ((sw.execAll out).execAll (c.evMsgs (.connect now up lag)))).flows = (sw.execAll out).flows :=
    (base_rmsg _ (evMsgs_rmsg ho)).trans (base_ufl ho hd.flows)
  obtain ⟨-, h2, h3⟩ := L2.react_ok hcinv hhosts (by intro now k h; cases h) hr
  refine ⟨dinv_congr hbase hd, h2, h3, hseen, ?_, ?_, ?_⟩
  · refine rflows_ev ho ?_ _
    intro sl b hs hb
    rw [hnone sl hs] at hb; cases hb
  · intro sl hn
    show ((sw.execAll out).execAll (c.evMsgs (.connect now up lag))).flows sl ≠ none
    rw [execAll_flows]
    obtain ⟨b, -, h⟩ := (puts_after (fun m hm => by obtain ⟨s, b, h, -⟩ := evMsgs_rules ho (ev := .connect now up lag) m hm; exact ⟨s, b, h⟩) sl _).2
      (connect_needed hn now up lag)
    rw [h]; simp
  · exact ⟨c.start, hst, fun _ sl h1 h2 => connect_fib ho (fun s h1 h2 => hnone s (fib_routing h1 h2)) now up lag h1 h2⟩

theorem rinv_event (ho : c.Ok) (hP : ∀ n, P n → c.Routable n) {s : Sys} {u : Nat → Bool} {ev : L2.Ev} {ms out : List OfMsg} {ctl : L2.Ctl}
    {sh : List OfMsg → List OfMsg} {bar : Bool} (hsh : ∀ l, (sh l).Perm l) (hseen : ∀ now k, ev = .packetIn now k → s.l2.seen k)
    (hr : c.l2.react s.l2.ctl ev = some (ms, ctl)) (hout : FlowReorder.reorder sh bar ms = some out) (ih : RInv c P u s) :
    RInv c P (ev.upAfter u) ⟨⟨ctl, (s.l2.sw.execAll out).execAll (c.evMsgs ev), s.l2.seen⟩, evSt s.st ev⟩ := by
  cases hcon : ev.isConnect with
  | true =>
    cases ev with
    | connect now up lag =>
      obtain ⟨F, hF, -⟩ := ih.fib
      exact rinv_connect ho hsh ih.cinv ih.hosts ih.seen hr hout (inv_restart ho hF)
    | _ => simp [L2.Ev.isConnect] at hcon
  | false =>
    obtain ⟨h1, -⟩ := L2.react_u (K := L2.Sys.Told ⟨s.l2.ctl, c.base s.l2.sw, s.l2.seen⟩) ho.basic ih.cinv ih.hosts ih.l2.hosts (ev := ev)
      (fun now k hk => ⟨ih.seen k (hseen now k hk), fun hg => ⟨hg, k, hseen now k hk, rfl⟩⟩) hcon hr
    have hall := L2.out_u hsh hout trivial h1
    have hd := L2.dinv_event ho.wf ho.basic (s := ⟨s.l2.ctl, c.base s.l2.sw, s.l2.seen⟩) (u := u) ih.cinv ih.hosts hsh
      (fun now k hk => ⟨hseen now k hk, ih.seen k (hseen now k hk)⟩) hr hout ih.l2
    obtain ⟨-, h2, h3⟩ := L2.react_ok ih.cinv ih.hosts (fun now k hk => ih.seen k (hseen now k hk)) hr
    have hkeep : ∀ sl, c.routing sl = true → (s.l2.sw.execAll out).flows sl = s.l2.sw.flows sl := by
      intro sl hs
      rw [execAll_flows, slotAfter_keep ho hall hs]
    refine ⟨dinv_congr ((base_rmsg _ (evMsgs_rmsg ho)).trans (base_msgU ho _ hall)) hd, h2, h3, ih.seen, ?_, ?_, ?_⟩
    · refine rflows_ev ho ?_ _
      intro sl b hs hb
      rw [hkeep sl hs] at hb
      exact ih.rules sl b hs hb
    · intro sl hn
      show ((s.l2.sw.execAll out).execAll (c.evMsgs ev)).flows sl ≠ none
      rw [execAll_flows]
      have hputs := puts_after (fun m hm => by obtain ⟨s, b, h, -⟩ := evMsgs_rules ho (ev := ev) m hm; exact ⟨s, b, h⟩) sl
        ((s.l2.sw.execAll out).flows sl)
      by_cases hp : Puts (c.evMsgs ev) sl
      · obtain ⟨b, -, h⟩ := hputs.2 hp
        rw [h]; simp
      · rw [hputs.1 hp, hkeep sl (rneeded_routing hn)]
        exact ih.needed sl hn
    · obtain ⟨F, hF, hag⟩ := ih.fib
      have hst : evSt s.st ev = s.st := by
        cases ev with
        | connect => simp [L2.Ev.isConnect] at hcon
        | _ => rfl
      refine ⟨F, by rw [hst]; exact hF, ?_⟩
      intro hrun sl ht hi
      show ((s.l2.sw.execAll out).execAll (c.evMsgs ev)).flows sl = F sl
      rw [execAll_flows, hkeep sl (fib_routing ht hi), hag (running_back hcon hr hrun) sl ht hi]
      exact again_fib ho hP hF ev ht

theorem rinv_route (ho : c.Ok) {s : Sys} {u : Nat → Bool} (e : Route.Env) (o : Route.Op) (hsh : ∀ l, (e.shuffle l).Perm l)
    (ht : Route.Tame c.mgr c.vlans P s.st o) (ih : RInv c P u s) :
    RInv c P u ⟨⟨s.l2.ctl, sendIf s.l2.ctl.running s.l2.sw (FlowReorder.deletesFirst (Route.flowMods (c.mgr.step e s.st o).2)), s.l2.seen⟩,
      (c.mgr.step e s.st o).1⟩ := by
  have hfib := fib_deletesFirst (fib_step ho.conf e ht)
  have hrm : ∀ m ∈ FlowReorder.deletesFirst (Route.flowMods (c.mgr.step e s.st o).2), RMsg c m := fun m hm => fib_rmsg ho (hfib m hm)
  have hA : c.l2.tfib ≠ tableAll := (ho.basic.fib ho.ipv4).all
  obtain ⟨F, hF, hag⟩ := ih.fib
  have hF' := Route.inv_step ho.conf hF hsh ht
  generalize hms : FlowReorder.deletesFirst (Route.flowMods (c.mgr.step e s.st o).2) = msgs at hfib hrm
  unfold sendIf
  cases hrun : s.l2.ctl.running with
  | false =>
    simp only [Bool.false_eq_true, if_false]
    exact ⟨ih.l2, ih.cinv, ih.hosts, ih.seen, ih.rules, ih.needed, ⟨_, hF', fun h => by rw [hrun] at h; cases h⟩⟩
  | true =>
    simp only [if_true]
    refine ⟨dinv_congr (base_rmsg _ hrm) ih.l2, ih.cinv, ih.hosts, ih.seen, rflows_fib ho ih.rules hfib, ?_, ⟨_, hF', ?_⟩⟩
    · intro sl hn
      show (s.l2.sw.execAll msgs).flows sl ≠ none
      rw [execAll_flows, (fib_after hA hfib sl _).1]
      · exact ih.needed sl hn
      · rcases rneeded_table hn with h | h <;> rw [h]
        · exact (ho.basic.fib ho.ipv4).cls.symm
        · exact (ho.basic.distinctR ho.ipv4).2.symm
    · intro _ sl h1 h2
      show (s.l2.sw.execAll msgs).flows sl = _
      rw [execAll_flows, hag hrun sl h1 h2, ← hms, Route.stable_step ho.conf e o]
      rfl

theorem rinv_timeout (ho : c.Ok) {s : Sys} {u : Nat → Bool} {sl : Slot} {b : Body} (hf : s.l2.sw.flows sl = some b)
    (ht : b.hard ≠ 0 ∨ b.idle ≠ 0) (ih : RInv c P u s) :
    RInv c P u ⟨⟨s.l2.ctl, ⟨fun x => if x = sl then none else s.l2.sw.flows x, s.l2.sw.groups, s.l2.sw.meters⟩, s.l2.seen⟩, s.st⟩ := by
  have hbase : c.routing sl = true →
      (c.base ⟨fun x => if x = sl then none else s.l2.sw.flows x, s.l2.sw.groups, s.l2.sw.meters⟩).flows = (c.base s.l2.sw).flows := by
    intro hs
    funext x
    rw [base_flows, base_flows]
    by_cases hx : x = sl
    · subst hx; rw [hs]; rfl
    · simp [hx]
  have hbase' : c.routing sl = false →
      (c.base ⟨fun x => if x = sl then none else s.l2.sw.flows x, s.l2.sw.groups, s.l2.sw.meters⟩).flows =
        fun x => if x = sl then none else (c.base s.l2.sw).flows x := by
    intro hs
    funext x
    rw [base_flows, base_flows]
    by_cases hx : x = sl
    · subst hx; simp
    · simp [hx]
  refine ⟨?_, ih.cinv, ih.hosts, ih.seen, ?_, ?_, ?_⟩
  · cases hs : c.routing sl with
    | true => exact dinv_congr (hbase hs) ih.l2
    | false =>
      refine dinv_congr (hbase' hs) (L2.dinv_timeout ho.basic ih.l2 (sl := sl) (b := b) ?_ ht)
      show (c.base s.l2.sw).flows sl = some b
      rw [base_flows, hs]; exact hf
  · intro x b' hs hb
    simp only at hb
    split at hb
    · cases hb
    · exact ih.rules x b' hs hb
  · intro x hn
    simp only
    split
    · rename_i he
      subst he
      have := rrule_permanent ho (ih.rules _ b (rneeded_routing hn) hf) (by
        rcases rneeded_table hn with h | h <;> rw [h]
        · exact (ho.basic.fib ho.ipv4).cls.symm
        · exact (ho.basic.distinctR ho.ipv4).2.symm)
      rcases ht with h | h
      · exact absurd this.1 h
      · exact absurd this.2 h
    · exact ih.needed x hn
  · obtain ⟨F, hF, hag⟩ := ih.fib
    by_cases hin : s.l2.ctl.running = true ∧ sl.table = c.l2.tfib ∧ sl.items ≠ []
    · obtain ⟨hrun, h1, h2⟩ := hin
      refine ⟨fun x => if x = sl then none else F x, ?_, ?_⟩
      · have hcalm : Route.Calm c.mgr ⟨F, blank.groups, blank.meters⟩ ⟨fun x => if x = sl then none else F x, blank.groups, blank.meters⟩ := by
          intro x hx
          by_cases he : x = sl
          · subst he
            exact Or.inr ⟨b, (hag hrun x h1 h2).symm.trans hf, ht, by simp⟩
          · exact Or.inl (by simp [he])
        exact Route.inv_calm (sw := ⟨F, blank.groups, blank.meters⟩) ho.vips blank_ok hF hcalm
      · intro _ x h3 h4
        simp only
        split
        · rfl
        · exact hag hrun x h3 h4
    · refine ⟨F, hF, ?_⟩
      intro hrun x h1 h2
      have hne : x ≠ sl := by rintro rfl; exact hin ⟨hrun, h1, h2⟩
      simp only [if_neg hne]
      exact hag hrun x h1 h2

theorem rinv_packet (ho : c.Ok) {s : Sys} {u : Nat → Bool} {k : Pkt} {es : List Emit} (hk : Wire k) (hpl : Plain c.l2 k)
    (hes : Proc s.l2.sw 0 k es) (ih : RInv c P u s) :
    RInv c P u ⟨⟨s.l2.ctl, s.l2.sw, fun x => s.l2.seen x ∨ ∃ e ∈ es, e.port = portController ∧ x = L2.Emit.toPacketIn e⟩, s.st⟩ := by
  refine ⟨L2.dinv_packet ih.l2 es, ih.cinv, ih.hosts, ?_, ih.rules, ih.needed, ih.fib⟩
  rintro x (hx | ⟨e, he, hport, rfl⟩)
  · exact ih.seen x hx
  · exact walk_seen ho ih.l2.flows ih.rules hk hpl hes he hport

theorem rinv (ho : c.Ok) (hP : ∀ n, P n → c.Routable n) {s : Sys} {u : Nat → Bool} (h : Run c (fun k => Wire k ∧ Plain c.l2 k) P s u) : RInv c P u s := by
  induction h with
  | @start sw0 st0 now up lag ms ctl sh bar out hst hsh hr hout =>
    refine rinv_connect ho hsh (Learn.cinv_init _) ?_ (fun x hx => hx.elim) hr hout (Route.inv_start ho.conf ho.vips blank_ok hst)
    intro vid m e he; simp [Learn.host, L2.Ctl.init, Learn.St.init, HostCache.cachedHost] at he
  | event _ hsh hseen hr hout ih => exact rinv_event ho hP hsh hseen hr hout ih
  | route e o _ hsh ht ih => exact rinv_route ho e o hsh ht ih
  | packet _ hok hproc ih => exact rinv_packet ho hok.1 hok.2 hproc ih
  | timeout _ hf ht ih => exact rinv_timeout ho hf ht ih

end Faucet.Routed
