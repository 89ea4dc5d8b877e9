import Verif.Features.L2
import Verif.Routed.Fib

/-!
# The rules of a switch that routes fit their tables
-/

namespace Faucet.Features
open Faucet.OF
open Faucet.Pipeline (Tbl Conf idOf)

/-! ## Prerequisites, computed -/

def hasItem (is : List MatchItem) (k v : Nat) : Bool := is.any (fun i => i.field == k && (i.value == v && i.mask.isNone))

def wfItem (is : List MatchItem) (i : MatchItem) : Bool :=
  (i.field != fIpv4Dst || hasItem is fEthType 0x0800) && (i.field != fIpv6Dst || hasItem is fEthType 0x86DD)
    && (i.field != fArpTpa || hasItem is fEthType 0x0806)
    && (i.field != fIpProto || (hasItem is fEthType 0x0800 || hasItem is fEthType 0x86DD))
    && (i.field != fIcmpv6Type || hasItem is fIpProto 58) && i.field != fVlanPcp

def wfOk (is : List MatchItem) : Bool := is.all (wfItem is)

theorem has_of {is : List MatchItem} {k v : Nat} (h : hasItem is k v = true) : Has is k v := by
  obtain ⟨i, hi, e⟩ := List.any_eq_true.1 h
  obtain ⟨a, b, c⟩ := i
  simp only [Bool.and_eq_true, beq_iff_eq, Option.isNone_iff_eq_none] at e
  obtain ⟨rfl, rfl, rfl⟩ := e
  exact hi

theorem wf_of {is : List MatchItem} (h : wfOk is = true) : WellFormed is := by
  have key : ∀ i ∈ is, wfItem is i = true := List.all_eq_true.1 h
  unfold wfItem at key
  simp only [Bool.and_eq_true, Bool.or_eq_true, bne_iff_ne, ne_eq] at key
  refine ⟨fun i hi e => ?_, fun i hi e => ?_, fun i hi e => ?_, fun i hi e => ?_, fun i hi e => ?_, fun i hi e => ?_⟩
  · exact has_of ((key i hi).1.1.1.1.1.resolve_left (not_not_intro e))
  · exact has_of ((key i hi).1.1.1.1.2.resolve_left (not_not_intro e))
  · exact has_of ((key i hi).1.1.1.2.resolve_left (not_not_intro e))
  · exact ((key i hi).1.1.2.resolve_left (not_not_intro e)).imp has_of has_of
  · exact has_of ((key i hi).1.2.resolve_left (not_not_intro e))
  · exact absurd e (key i hi).2

/-- As `good`, without prerequisites. -/
def fine (d : Decl) (sh : List (Nat × Bool)) : Bool := shapeOk d sh && distinct sh && noMeta sh

theorem law_fine {h : Hardware} {s : Setup} {eg : Bool} {t : Tbl} (ht : Pipeline.included s.conf t = true) {T : Table}
    (e : T.id = idOf s.conf t) {is : List MatchItem} {prio : Nat} {inst : List Inst} {hard idle : Nat} (hp : prio ≠ 0)
    (ha : s.NoAcl t) (sh : List (Nat × Bool)) (hg : ∀ e x r, fine ((std e x r).decl t) sh = true) (hs : shape is = sh)
    (hw : wfOk is = true) (hi : InstsOk h (s.decl t) (nextIds s.conf t) eg inst) :
    MsgLaw h s eg (T.flowadd is prio inst hard idle) := by
  have hg := hg s.conf.egressPipeline s.externals s.restricted
  rw [← decl_std ha, ← hs] at hg
  unfold fine at hg
  simp only [Bool.and_eq_true] at hg
  exact law_add ht e hp hg.1.1 hg.1.2 (wf_of hw) (noMeta_bits hg.2) hi

/-! ## Route managers -/

/-- A route manager as `faucet/valve.py` 283-321 makes it, for one of the two families. -/
structure RouteSetup (s : Setup) (fib : Tbl) (m : Route.Mgr) : Prop where
  which : (fib = .ipv4Fib ∧ m.ipDst = fIpv4Dst ∧ m.ethType = 0x0800) ∨ (fib = .ipv6Fib ∧ m.ipDst = fIpv6Dst ∧ m.ethType = 0x86DD)
  has : Pipeline.included s.conf fib = true
  fibT : m.fib.id = idOf s.conf fib
  vipT : m.vip.id = idOf s.conf .vip
  l2 : m.toL2 = idOf s.conf (Pipeline.outTable s.conf)
  acl : s.NoAcl fib

section
variable {hw : Hardware} {s : Setup} {fib : Tbl} {m : Route.Mgr}

theorem fib_std (w : RouteSetup s fib m) : ∃ y ∈ Pipeline.standard, y.name = fib ∧ Tbl.vip ∈ y.next ∧ Tbl.hairpin ∈ y.next ∧ Tbl.ethDst ∈ y.next := by
  rcases w.which with ⟨rfl, _⟩ | ⟨rfl, _⟩ <;> decide

theorem fib_l2 (w : RouteSetup s fib m) : m.toL2 ∈ nextIds s.conf fib := by
  rw [w.l2]
  obtain ⟨y, h1, h2, _, h3, h4⟩ := fib_std w
  refine next_std w.has (Pipeline.out_included s.conf) ⟨y, h1, h2, ?_⟩
  rcases Pipeline.out_cases s.conf with e | e <;> rw [e]
  · exact h3
  · exact h4

theorem inc_vip (w : RouteSetup s fib m) : Pipeline.included s.conf .vip = true := by
  have h := w.has
  rcases w.which with ⟨rfl, _⟩ | ⟨rfl, _⟩
  · have h : s.conf.ipv4 = true := h
    show (s.conf.ipv4 || s.conf.ipv6) = true
    rw [h]; rfl
  · have h : s.conf.ipv6 = true := h
    show (s.conf.ipv4 || s.conf.ipv6) = true
    rw [h, Bool.or_true]

theorem fib_vip_next (w : RouteSetup s fib m) : m.vip.id ∈ nextIds s.conf fib := by
  rw [w.vipT]
  obtain ⟨y, h1, h2, h3, _⟩ := fib_std w
  exact next_std w.has (inc_vip w) ⟨y, h1, h2, h3⟩

/-- A rule for a prefix. -/
theorem prefix_law (w : RouteSetup s fib m) {eg : Bool} {vid prio hard : Nat} {n : Route.Net} {inst : List Inst} (hp : prio ≠ 0)
    (hi : InstsOk hw (s.decl fib) (nextIds s.conf fib) eg inst) :
    MsgLaw hw s eg (m.fib.flowadd (m.routeMatch vid n) prio inst hard 0) := by
  have h := w.which
  rcases h with ⟨e1, e2, e3⟩ | ⟨e1, e2, e3⟩
  · refine law_fine w.has w.fibT hp w.acl [(fVlanVid, false), (fEthType, false), (fIpv4Dst, true)] ?_ ?_ ?_ hi
    · rw [e1]; decide
    · unfold Route.Mgr.routeMatch; rw [e2]; rfl
    · unfold Route.Mgr.routeMatch; rw [e2, e3]; rfl
  · refine law_fine w.has w.fibT hp w.acl [(fVlanVid, false), (fEthType, false), (fIpv6Dst, true)] ?_ ?_ ?_ hi
    · rw [e1]; decide
    · unfold Route.Mgr.routeMatch; rw [e2]; rfl
    · unfold Route.Mgr.routeMatch; rw [e2, e3]; rfl

theorem prefix_del (w : RouteSetup s fib m) {eg : Bool} {vid prio : Nat} {n : Route.Net} {st : Bool} (k : Nat) :
    MsgLaw hw s eg ((⟨m.fib.id, k⟩ : Table).flowdel (m.routeMatch vid n) prio none st) := by
  have h := w.which
  rcases h with ⟨e1, e2, _⟩ | ⟨e1, e2, _⟩
  · refine law_del (T := ⟨m.fib.id, k⟩) w.has w.fibT (known_std w.acl [(fVlanVid, false), (fEthType, false), (fIpv4Dst, true)] ?_ ?_)
    · rw [e1]; decide
    · unfold Route.Mgr.routeMatch; rw [e2]; rfl
  · refine law_del (T := ⟨m.fib.id, k⟩) w.has w.fibT (known_std w.acl [(fVlanVid, false), (fEthType, false), (fIpv6Dst, true)] ?_ ?_)
    · rw [e1]; decide
    · unfold Route.Mgr.routeMatch; rw [e2]; rfl

theorem hop_acts (w : RouteSetup s fib m) (ht : m.decTtl = true → hw.decTtl = true) (v : Route.Vlan) (mac : Nat) :
    ∀ a ∈ m.nexthopActs v mac, actOk hw (s.decl fib) a = true := by
  have sets : ∀ e x r, (fun d : Decl => d.decTtl && d.setFields.contains fVlanVid && d.setFields.contains fEthSrc
      && d.setFields.contains fEthDst) ((std e x r).decl fib) = true := by
    rcases w.which with ⟨rfl, _⟩ | ⟨rfl, _⟩ <;> decide
  have sets := sets s.conf.egressPipeline s.externals s.restricted
  rw [← decl_std w.acl] at sets
  simp only [Bool.and_eq_true] at sets
  obtain ⟨⟨⟨h1, h2⟩, h3⟩, h4⟩ := sets
  unfold Route.Mgr.nexthopActs
  refine acts_append (acts_append ?_ ?_) ?_
  · by_cases hd : m.decTtl = true
    · rw [if_pos hd]
      refine acts_one ?_
      show ((s.decl fib).decTtl && hw.decTtl) = true
      rw [h1, ht hd]
      rfl
    · rw [if_neg hd]; exact acts_nil
  · split
    · exact acts_nil
    · exact acts_one h2
  · intro a ha
    rcases List.mem_cons.1 ha with rfl | ha
    · exact h3
    · cases List.mem_singleton.1 ha
      exact h4

theorem accept_insts (w : RouteSetup s fib m) {eg : Bool} (ht : m.decTtl = true → hw.decTtl = true) (v : Route.Vlan) (mac : Nat) :
    InstsOk hw (s.decl fib) (nextIds s.conf fib) eg (m.acceptL2 (m.nexthopActs v mac)) :=
  insts_append (a := [.goto m.toL2]) (insts_goto (fib_l2 w)) (insts_apply (hop_acts w ht v mac))

theorem lpm_ne (n : Nat) : Route.lpmPriority + n ≠ 0 := by
  unfold Route.lpmPriority
  omega

theorem fibMsg_law (w : RouteSetup s fib m) {eg : Bool} (ht : m.decTtl = true → hw.decTtl = true) {vs : List Route.Vlan} {x : OfMsg}
    (h : Routed.FibMsg m vs x) : MsgLaw hw s eg x := by
  rcases h with ⟨v, _, rv, _, n, mac, rfl⟩ | ⟨rv, n, hard, rfl⟩ | ⟨c, rv, n, rfl⟩
  · have e : Route.put (m.slot rv n) (m.routeBody v mac)
        = m.fib.flowadd (m.routeMatch rv n) (m.routePriority n) (m.acceptL2 (m.nexthopActs v mac)) := by
      have := Route.nexthopActs_ne m v mac
      simp [Route.put, Route.Mgr.slot, Route.Mgr.routeBody, Route.Mgr.acceptL2, Table.flowadd, trimInst, trimOne, Inst.isGoto, this]
    rw [e]
    exact prefix_law w (n := n) (vid := rv) (lpm_ne _) (accept_insts w ht v mac)
  · exact prefix_law w (n := n) (vid := rv) (hard := hard) (lpm_ne _) insts_nil
  · exact prefix_del w c (n := n) (vid := rv) (prio := m.routePriority n) (st := true)

theorem vipFlows_law (w : RouteSetup s fib m) {eg : Bool} {v : Route.Vlan} {x : Route.Vip} : ∀ y ∈ m.vipFlows v x, MsgLaw hw s eg y := by
  unfold Route.Mgr.vipFlows
  exact laws_cons (prefix_law w (lpm_ne _) (insts_goto (fib_vip_next w)))
    (laws_ite (fun _ => laws_map (fun _ _ => prefix_law w (lpm_ne _) (insts_goto (fib_vip_next w)))) (fun _ => laws_nil))

end

/-! ## The switch of the area `Routed` -/

section
variable {hw : Hardware} {c : Routed.RCfg}

theorem routeSetup (h4 : c.l2.ipv4 = true) : RouteSetup (setup c.l2) .ipv4Fib c.mgr where
  which := Or.inl ⟨rfl, rfl, rfl⟩
  has := h4
  fibT := rfl
  vipT := rfl
  l2 := rfl
  acl := rfl

theorem inc_vip4 (h4 : c.l2.ipv4 = true) : Pipeline.included (setup c.l2).conf .vip = true := inc_vip (routeSetup h4)

theorem select_law (ok : CfgOk c.l2) {t : Tbl} (ht : Pipeline.included (setup c.l2).conf t = true)
    (hn : ∃ x ∈ Pipeline.standard, x.name = .ethSrc ∧ t ∈ x.next) {is : List MatchItem} (sh : List (Nat × Bool))
    (hg : ∀ e x r, good ((std e x r).decl .ethSrc) sh = true) (hs : shape is = sh) : Law hw c.l2 (c.select (c.l2.table t) is) :=
  law_plain inc_src (class_src ok) (by decide) (good_std noAcl sh hg hs) (insts_goto (next_std rfl ht hn))

theorem vip_l2 (h4 : c.l2.ipv4 = true) : c.outId ∈ nextIds (setup c.l2).conf .vip := by
  refine next_std (inc_vip4 h4) (Pipeline.out_included c.l2.conf) ?_
  rcases Pipeline.out_cases c.l2.conf with e | e <;> rw [e] <;> decide

theorem vipCtrl_law (h4 : c.l2.ipv4 = true) {is : List MatchItem} {n : Nat} (sh : List (Nat × Bool))
    (hg : ∀ e x r, fine ((std e x r).decl .vip) sh = true) (hs : shape is = sh) (hw' : wfOk is = true) :
    Law hw c.l2 (c.vipCtrl is (Route.lpmPriority + n)) :=
  law_fine (inc_vip4 h4) rfl (lpm_ne n) noAcl sh hg hs hw' (insts_apply (acts_one (output_std noAcl)))

theorem vipBoth_law (h4 : c.l2.ipv4 = true) {is : List MatchItem} {n : Nat} (sh : List (Nat × Bool))
    (hg : ∀ e x r, fine ((std e x r).decl .vip) sh = true) (hs : shape is = sh) (hw' : wfOk is = true) :
    Law hw c.l2 (c.vipBoth is (Route.lpmPriority + n)) :=
  law_fine (inc_vip4 h4) rfl (lpm_ne n) noAcl sh hg hs hw'
    (insts_append (a := [.goto c.outId]) (insts_goto (vip_l2 h4)) (insts_apply (acts_one (output_std noAcl))))

theorem routeVlan_law (ok : CfgOk c.l2) (h4 : c.l2.ipv4 = true) {v : Route.Vlan} : ∀ m ∈ c.addVlan v, Law hw c.l2 m := by
  refine laws_flat (fun x _ => laws_append ?_ ?_)
  · refine laws_cons ?_ (laws_cons ?_ (laws_cons ?_ (laws_one ?_)))
    · exact select_law ok (inc_vip4 h4) (by decide) [(fEthType, false), (fVlanVid, false)] (by decide) rfl
    · exact vipCtrl_law h4 [(fEthDst, false), (fEthType, false), (fArpTpa, false)] (by decide) rfl rfl
    · exact vipCtrl_law h4 [(fEthDst, false), (fEthType, false)] (by decide) rfl rfl
    · exact law_fine (inc_vip4 h4) rfl (lpm_ne _) noAcl [(fEthType, false)] (by decide) rfl rfl (insts_goto (vip_l2 h4))
  · unfold Routed.RCfg.fibToVip Routed.RCfg.vipIp
    refine laws_append (laws_cons ?_ (vipFlows_law (routeSetup h4))) (laws_ite (fun _ => ?_) (fun _ => laws_nil))
    · exact select_law ok (t := .ipv4Fib) h4 (by decide) [(fEthDst, false), (fEthType, false), (fVlanVid, false)] (by decide) rfl
    · refine laws_cons ?_ (laws_cons ?_ (laws_cons ?_ (laws_one ?_)))
      · exact vipCtrl_law h4 [(fEthDst, false), (fEthType, false), (fIpProto, false)] (by decide) rfl rfl
      · exact vipBoth_law h4 [(fEthType, false), (fIpProto, false)] (by decide) rfl rfl
      · exact vipCtrl_law h4 [(fEthDst, false), (fEthType, false)] (by decide) rfl rfl
      · exact vipBoth_law h4 [(fEthType, false)] (by decide) rfl rfl

theorem evMsgs_law (ok : CfgOk c.l2) (h4 : c.l2.ipv4 = true) {ev : L2.Ev} : ∀ m ∈ c.evMsgs ev, Law hw c.l2 m := by
  cases ev with
  | connect now up lag => exact laws_flat (fun _ _ => routeVlan_law ok h4)
  | portUp now n lag =>
    unfold Routed.RCfg.evMsgs
    simp only
    split
    · exact laws_ite (fun _ => laws_flat (fun _ _ => routeVlan_law ok h4)) (fun _ => laws_nil)
    · exact laws_nil
  | _ => exact laws_nil

end

end Faucet.Features
