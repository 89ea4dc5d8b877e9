import Verif.Routed.Deliver

/-! # Routing IPv4 on one standalone switch (C69) -/

namespace Faucet.Routed
open Faucet.OF
open Faucet.L2 (LPort Stage Carried Wire Plain Ordinary Takes copies RightTags Allowed SameContent)

variable {c : RCfg} {P : Route.Net → Prop} {s : Sys} {u : Nat → Bool} {p : LPort} {k : Pkt} {vid : Nat} {inner : List (Nat × Nat)}
  {src dst : Nat} {es : List Emit} {v : Route.Vlan} {mac : Nat}

/-! ## Packets that are routed -/

/-- A packet to be routed goes through the tables as expected: after the mirrors of its port it is looked up in the table of
destinations, rewritten. -/
theorem routed_path (ho : c.Ok) (hP : ∀ n, P n → c.Routable n) (hi : RInv c P u s) (hrun : s.l2.ctl.running = true) (hp : p ∈ c.l2.ports)
    (ht : Takes u p) (hk : Ordinary c.l2 p k vid inner src dst) (hr : ToRoute c s k vid v mac) (hes : Proc s.l2.sw 0 k es) :
    ∃ es0 es1 k1, es = es0 ++ es1 ∧ (∀ e ∈ es0, e.port ∈ p.mirror) ∧ Stage p k vid inner k1 ∧
      Proc s.l2.sw c.l2.td (runInst s.l2.sw (c.mgr.routeBody v mac).inst k1).2 es1 := by
  obtain ⟨hfor, hv, hserves, ip, net, gw, hip, hin, hroute, hmac, hlong⟩ := hr
  obtain ⟨es0, es1, k1, h1, h2, hst, h3⟩ := first_table_r ho hi.l2.flows hi.l2.present hp ht hk hes
  have h4 := class_select ho hi.l2.flows hi.rules hi.needed hk hst hfor h3
  obtain ⟨F, hF, hag⟩ := hi.fib
  exact ⟨es0, es1, k1, h1, h2, hst, fib_hit ho hP hi.l2.flows hF (hag hrun) hv hroute hmac hserves (ip_stage hst hfor.1 hip) hin hlong h4⟩

/-- **C69.** On a standalone switch that is connected, every packet to be routed is delivered in the VLAN of the next hop,
rewritten: to one port only, and then FAUCET had heard of the next hop, and if it knows where the next hop is, it is there; or
to every other member of the VLAN; or, if flooding is per port and the packet did not come in through a member of that VLAN, to
nobody there.
Partial: as C63 and C20; IPv4 only, no global routing; `Route.Tame` operations on routes; the TTL is not modelled. -/
theorem routed_delivery_partial (ho : c.Ok) (hP : ∀ n, P n → c.Routable n) (hr : Run c (fun k => Wire k ∧ Plain c.l2 k) P s u)
    (hrun : s.l2.ctl.running = true) (hp : p ∈ c.l2.ports) (ht : Takes u p) (hk : Ordinary c.l2 p k vid inner src dst)
    (hto : ToRoute c s k vid v mac) (hmac : mac < 2 ^ 48 ∧ mac.testBit 40 = false) (hes : Proc s.l2.sw 0 k es) :
    (∃ q ∈ c.l2.ports, q.In v.vid ∧ s.l2.Heard mac ∧ RoutedUnicast c p q k v mac inner es ∧
      ∀ r, s.l2.Knows v.vid mac r → r.number = q.number) ∨
    ((c.l2.combinatorial = false ∨ p.In v.vid) ∧ RoutedFlood c p k v mac inner es) ∨
    (c.l2.combinatorial = true ∧ ¬ p.In v.vid ∧ ∀ q ∈ c.l2.ports, q.In v.vid → copies q es = []) := by
  have hi := rinv ho hP hr
  have hw := ho.wf
  have hb := ho.basic
  have hv := hto.vlan
  obtain ⟨es0, es1, k1, rfl, hmir, hst, hproc⟩ := routed_path ho hP hi hrun hp ht hk hto hes
  have hrv := Route.serves_iff.1 hto.serves
  have hall := routed_out ho hi.l2.flows hp hst hk.port hv hrv hproc
  obtain ⟨pcp, htg⟩ := hst.tags
  obtain ⟨-, h2, h3⟩ := run_route (sw := s.l2.sw) ho hv hrv mac htg rfl
  have hbase := out_base ho hi.l2.flows hproc (Or.inl rfl)
  generalize (runInst s.l2.sw (c.mgr.routeBody v mac).inst k1).2 = k2 at h2 h3 hbase
  have hin2 : k2.hdr fInPort = some p.number := by
    rw [h3, if_neg (by decide), if_neg (by decide), hst.hdr _ (by decide), hk.port]
  have hdst2 : k2.hdr fEthDst = some mac := by rw [h3, if_pos rfl]
  have hst2 : Stage (asIf p v.vid) k2 v.vid inner k2 :=
    ⟨fun _ _ => rfl, by rw [h2]; exact asIf_carried p v.vid pcp inner, ⟨pcp, h2⟩, ho.conf.vid v hv⟩
  have hcop : ∀ q ∈ c.l2.ports, ∀ x, q.In x → copies q (es0 ++ es1) = copies q es1 := by
    intro q hq x hqin
    rw [L2.copies_append, L2.copies_none (es := es0), List.nil_append]
    exact fun e he => L2.mirror_not_member hw hp (L2.carried_in hk.carried) hq hqin (hmir e he)
  have hone : ∀ q ∈ c.l2.ports, q.In v.vid → (∃ e, copies q es1 = [e]) → GetsRouted q k v mac inner (es0 ++ es1) := by
    rintro q hq hqin ⟨e, he⟩
    obtain ⟨hm, hport⟩ := List.mem_filter.1 (show e ∈ copies q es1 by rw [he]; simp)
    have hport : e.port = q.number := by simpa using hport
    obtain ⟨h4, h5⟩ := hall e hm
    refine ⟨e, by rw [hcop q hq _ hqin]; exact he, h5, ?_⟩
    rcases h4 with ⟨q', hq', hn, htags⟩ | ⟨q', hq', hin', hmm⟩
    · obtain rfl := L2.port_inj hw hq' hq (hn.symm.trans hport)
      exact htags
    · exact absurd hport (L2.mirror_not_member hw hq' hin' hq hqin hmm)
  rcases L2.dst_table hw hb hi.l2.flows hi.l2.present hdst2 hst2 hbase with h6 | ⟨q, hq, hqin, hknown, hout, b, hbs, hbi⟩
  · obtain ⟨w, hw', hwv, -⟩ := ho.vlans v hv
    rcases flood_table_any hw hb hi.l2.flows hi.l2.present hp ht hst2 ⟨w, hw', hwv⟩ hin2
      (fun d hd => unicast_not_reserved hdst2 hmac.1 hmac.2 hd) h6 with ⟨h7, h8⟩ | ⟨h7, h8, h9⟩
    · refine Or.inr (Or.inl ⟨h7, ?_, fun q hq hqin hne => hone q hq hqin (h8.2 q hq hqin hne)⟩)
      rw [hcop p hp _ (L2.carried_in hk.carried)]; exact h8.1
    · refine Or.inr (Or.inr ⟨h7, h8, ?_⟩)
      intro q hq hqin
      rw [hcop q hq _ hqin, h9]; rfl
  · refine Or.inl ⟨q, hq, hqin, hknown.2, ⟨?_, ?_, ?_⟩, ?_⟩
    · intro r hr hrin hne
      rw [hcop r hr _ hrin, hout]
      exact (L2.output_copies hb hw hq hqin hp hin2 hr hrin).1 hne
    · rintro rfl
      rw [hcop q hq _ hqin, hout]
      exact (L2.output_copies hb hw hq hqin hp hin2 hq hqin).2.1 rfl rfl
    · intro hne
      refine hone q hq hqin ?_
      rw [hout]
      exact (L2.output_copies hb hw hq hqin hp hin2 hq hqin).2.2 rfl hne
    · rintro r ⟨e, he, hen⟩
      obtain ⟨j, hj, hsp⟩ := hi.l2.dst v.vid mac e b (ho.conf.vid v hv) he hbs
      rw [hbi] at hj
      have hjq := L2.dstInst_inj hb hj
      rw [← hen, hjq]
      rcases hsp with h | ⟨h, -⟩
      · exact h.symm
      · exact absurd (L2.hostPort_plain hb j).2.2.1 h

/-- **C69.** If FAUCET knows where the next hop is, it gets packets that are routed to it, unless they come from the same port;
if flooding is per port, unless they come in through a port outside its VLAN. -/
theorem next_hop_gets_partial (ho : c.Ok) (hP : ∀ n, P n → c.Routable n) (hr : Run c (fun k => Wire k ∧ Plain c.l2 k) P s u)
    (hrun : s.l2.ctl.running = true) (hp : p ∈ c.l2.ports) (ht : Takes u p) (hk : Ordinary c.l2 p k vid inner src dst)
    (hto : ToRoute c s k vid v mac) (hmac : mac < 2 ^ 48 ∧ mac.testBit 40 = false) (hes : Proc s.l2.sw 0 k es)
    {q : LPort} (hq : q ∈ c.l2.ports) (hkn : s.l2.Knows v.vid mac q) (hne : q ≠ p) (hfl : c.l2.combinatorial = false ∨ p.In v.vid) :
    GetsRouted q k v mac inner es := by
  have hi := rinv ho hP hr
  obtain ⟨e, he, hen⟩ := hkn
  obtain ⟨q', hq', hn, hin⟩ := hi.hosts v.vid mac e he
  obtain rfl := L2.port_inj ho.wf hq' hq (hn.trans hen)
  rcases routed_delivery_partial ho hP hr hrun hp ht hk hto hmac hes with ⟨r, hr, -, -, hu, hkn⟩ | ⟨-, h⟩ | ⟨h1, h2, -⟩
  · obtain rfl := L2.port_inj ho.wf hq hr (hkn q' ⟨e, he, hen⟩)
    exact hu.2.2 hne
  · exact h.2 q' hq hin hne
  · rcases hfl with h | h
    · rw [h1] at h; cases h
    · exact absurd h h2

/-- **C69.** A packet that FAUCET routes is not sent to FAUCET, nor in its own VLAN unless that is the VLAN of the next hop: all
copies are in the VLAN of the next hop, rewritten, but for those to the mirrors of the port it came in through. -/
theorem routed_only_partial (ho : c.Ok) (hP : ∀ n, P n → c.Routable n) (hr : Run c (fun k => Wire k ∧ Plain c.l2 k) P s u)
    (hrun : s.l2.ctl.running = true) (hp : p ∈ c.l2.ports) (ht : Takes u p) (hk : Ordinary c.l2 p k vid inner src dst)
    (hto : ToRoute c s k vid v mac) (hes : Proc s.l2.sw 0 k es) :
    ∀ e ∈ es, e.port ∈ p.mirror ∨ (InVlan c v.vid inner e ∧ Rewritten k v mac e) := by
  have hi := rinv ho hP hr
  obtain ⟨es0, es1, k1, rfl, hmir, hst, hproc⟩ := routed_path ho hP hi hrun hp ht hk hto hes
  have hall := routed_out ho hi.l2.flows hp hst hk.port hto.vlan (Route.serves_iff.1 hto.serves) hproc
  intro e he
  rcases List.mem_append.1 he with he | he
  · exact Or.inl (hmir e he)
  · exact Or.inr (hall e he)

/-! ## Isolation -/

/-- **C69.** Whatever comes in, the copies are in the VLAN of the packet with its content, or for FAUCET (C62); or the packet was
for the router, and the copy was routed to a VLAN that serves the VLAN of the packet. Then, if the switch is connected, that
VLAN has a route for a prefix that the destination of the packet is in; and if FAUCET knows the MAC of its gateway, the copy is
for that. -/
theorem routed_isolation_partial (ho : c.Ok) (hP : ∀ n, P n → c.Routable n) (hr : Run c (fun k => Wire k ∧ Plain c.l2 k) P s u)
    (hp : p ∈ c.l2.ports) (hk : Wire k) (hin : k.hdr fInPort = some p.number) (hes : Proc s.l2.sw 0 k es) :
    ∀ e ∈ es, (SameContent k e ∧ Allowed c.l2 p k e) ∨ ∃ v mac, RoutedCopy c p k v mac e ∧
      (s.l2.ctl.running = true → ∃ net gw, (s.st v.vid).routes.get? net = some gw ∧
        (∀ ip, k.hdr fIpv4Dst = some ip → net.contains 32 ip = true) ∧
        ∀ n m, (s.st v.vid).cache.get? gw = some n → n.eth = some m → m = mac) := by
  have hi := rinv ho hP hr
  intro e he
  rcases walk_fate ho hi.l2.flows hi.rules hp hk hin hes e he with h | ⟨vid, inner, hcar, h | ⟨v, hv, mac, k1, hrv, hst, ⟨n, hh⟩, hfor, hinv, hrw⟩⟩
  · exact Or.inl h
  · exact Or.inl h
  · refine Or.inr ⟨v, mac, ⟨hv, ⟨vid, inner, hcar, hfor, Route.serves_iff.2 hrv, hinv⟩, hrw⟩, ?_⟩
    intro hrun
    obtain ⟨F, hF, hag⟩ := hi.fib
    have hpres : F (c.mgr.slot vid n) = some (c.mgr.routeBody v mac) := by
      rw [← hag hrun _ rfl (by simp [Route.Mgr.slot, Route.Mgr.routeMatch])]; exact hh.present
    obtain ⟨v', hv', hrv', hroute, mac', hbody⟩ := hF.owned vid n _ hst.small hpres (Route.forwards_route _ _ _)
    obtain ⟨pcp, htg⟩ := hst.tags
    obtain ⟨-, h2, h3⟩ := run_route (sw := s.l2.sw) ho hv hrv mac htg rfl
    obtain ⟨-, h2', h3'⟩ := run_route (sw := s.l2.sw) ho hv' hrv' mac' htg rfl
    rw [← hbody] at h2' h3'
    have hvv : v = v' := by
      rw [h2] at h2'
      exact ho.conf.distinct v hv v' hv' (by simpa using h2')
    have hmm : mac = mac' := by
      have h := h3' fEthDst
      rw [h3, if_pos rfl, if_pos rfl] at h
      exact Option.some.inj h
    subst hvv hmm
    obtain ⟨gw, hgw⟩ := Option.ne_none_iff_exists'.1 hroute
    refine ⟨n, gw, hgw, ?_, ?_⟩
    · intro ip hip
      have hok : Route.NetOk c.mgr.width n := (hP n (hF.allowed v hv n hroute)).1
      exact ((Route.hits_slot ho.vips.field (ip_stage hst hfor.1 hip) hok).1 hh.hits).2
    · intro x m hx hm
      have heth : (s.st v.vid).eth gw = some m := by
        unfold Route.VState.eth
        rw [hx]
        exact hm
      have h := hF.full v hv n gw m vid hgw heth hrv
      rw [hpres] at h
      have hb := Option.some.inj h
      obtain ⟨-, -, h3''⟩ := run_route (sw := s.l2.sw) ho hv hrv m htg rfl
      have h4 := h3'' fEthDst
      rw [← hb, h3, if_pos rfl, if_pos rfl] at h4
      exact (Option.some.inj h4).symm

/-! ## Packets that are not routed -/

theorem noban_base (ho : c.Ok) {sw : Switch} (h : NoBan c sw) : L2.NoBan (c.base sw) := by
  intro sl b hb hh he
  rw [base_flows] at hb
  split at hb
  · cases hb
  · rename_i hs
    obtain ⟨vid, n, rfl⟩ := h sl b hb hh he
    exact hs (slot_routing vid n)

/-- **C69.** Packets that are not for the router, and are not ARP in a VLAN with an address of the router, are switched as on a
switch without routing (C63). -/
theorem unrouted_delivery_partial (ho : c.Ok) (hP : ∀ n, P n → c.Routable n) (hr : Run c (fun k => Wire k ∧ Plain c.l2 k) P s u)
    (hban : NoBan c s.l2.sw) (hp : p ∈ c.l2.ports) (ht : Takes u p) (hk : Ordinary c.l2 p k vid inner src dst)
    (harp : k.hdr fEthType = some typeArp → ¬ HasRouter c vid) (hfor : ¬ ForRouter c k vid) (hes : Proc s.l2.sw 0 k es) :
    L2.Flooded c.l2 p k vid inner es ∨
    ∃ q ∈ c.l2.ports, q.In vid ∧ s.l2.Heard dst ∧ dst.testBit 40 = false ∧ L2.Unicast c.l2 p q k vid inner es ∧
      ∀ r, s.l2.Knows vid dst r → r.number = q.number := by
  have hi := rinv ho hP hr
  refine L2.delivery_core ho.wf ho.basic hi.l2 (noban_base ho hban) hp ht hk
    (unselected_base ho hi.l2.flows hi.rules hp hk.wire hk.port hk.carried ?_ hfor hes)
  intro h w hw hwv
  by_contra hne
  exact harp h ⟨w, hw, hwv, hne⟩

/-- **C69.** FAUCET is told of every source address of such packets that it has not heard of. -/
theorem unrouted_source_told_partial (ho : c.Ok) (hP : ∀ n, P n → c.Routable n) (hr : Run c (fun k => Wire k ∧ Plain c.l2 k) P s u)
    (hban : NoBan c s.l2.sw) (hp : p ∈ c.l2.ports) (ht : Takes u p) (hk : Ordinary c.l2 p k vid inner src dst)
    (harp : k.hdr fEthType = some typeArp → ¬ HasRouter c vid) (hfor : ¬ ForRouter c k vid) (hes : Proc s.l2.sw 0 k es)
    (hnew : ¬ s.l2.Heard src) : ∃ e ∈ es, e.port = portController ∧ (L2.Emit.toPacketIn e).src = src := by
  have hi := rinv ho hP hr
  rcases L2.walk ho.wf ho.basic hi.l2 (noban_base ho hban) hp ht hk
    (unselected_base ho hi.l2.flows hi.rules hp hk.wire hk.port hk.carried (fun h w hw hwv => by
      by_contra hne
      exact harp h ⟨w, hw, hwv, hne⟩) hfor hes) with h | h
  · exact h
  · exact absurd h.2 hnew

/-- Without limits on the number of hosts nobody is banned. -/
theorem unlimited_no_ban (ho : c.Ok) (hP : ∀ n, P n → c.Routable n) (hl : c.l2.Unlimited) (hr : Run c (fun k => Wire k ∧ Plain c.l2 k) P s u) :
    NoBan c s.l2.sw := by
  have hi := rinv ho hP hr
  intro sl b hb hh he
  cases hs : c.routing sl with
  | true =>
    have hrr := hi.rules sl b hs hb
    cases hrr with
    | hole => exact ⟨_, _, rfl⟩
    | route => exact ⟨_, _, rfl⟩
    | vip => exact ⟨_, _, rfl⟩
    | _ => exact absurd rfl hh
  | false =>
    exfalso
    have hu := hi.l2.flows sl b (by show (c.base s.l2.sw).flows sl = _; rw [base_flows, hs]; exact hb)
    generalize b.inst = inst, b.hard = h1, b.idle = h2 at hu hh he
    cases hu with
    | ban h => exact h hl
    | src => cases he
    | dst =>
      have : c.l2.learn.egress = none := by show c.l2.egressTo = none; simp [L2.Cfg.egressTo, ho.basic.noEgress]
      simp [Learn.dstInst, Learn.pipelineOutput, this] at he
    | _ => exact absurd rfl hh

/-! ## Packets for FAUCET -/

theorem ctrl_only (hw : c.l2.WF) (hp : p ∈ c.l2.ports) (hin : k.hdr fInPort = some p.number) {k1 : Pkt} (hst : Stage p k vid inner k1) {es0 : List Emit}
    (hmir : ∀ e ∈ es0, e.port ∈ p.mirror) : OnlyFaucet p k vid inner (es0 ++ emitPort k1 portController) := by
  have hreal := hw.real p hp
  unfold L2.RealPort at hreal
  have hin1 : k1.hdr fInPort = some p.number := by rw [hst.hdr _ (by decide)]; exact hin
  have hem : emitPort k1 portController = [⟨portController, k1.tags, k1.hdr⟩] := by
    unfold emitPort
    rw [if_neg (by decide), hin1, if_neg]
    simp only [Option.some.injEq]
    unfold portController; omega
  rw [hem]
  exact ⟨es0, _, rfl, hmir, rfl, hst.hdr, hst.tags⟩

/-- **C69.** ARP to the router's MAC, or broadcast for an address of the router, in the VLAN where the router has it: FAUCET
gets it, and nobody else. -/
theorem arp_for_router_partial (ho : c.Ok) (hP : ∀ n, P n → c.Routable n) (hr : Run c (fun k => Wire k ∧ Plain c.l2 k) P s u)
    (hp : p ∈ c.l2.ports) (ht : Takes u p) (hk : Ordinary c.l2 p k vid inner src dst) (hty : k.hdr fEthType = some typeArp)
    {x : Route.Vip} (hv : v ∈ c.vlans) (hvv : v.vid = vid) (hx : x ∈ v.vips)
    (hus : dst = v.mac ∨ (dst = 0xFFFFFFFFFFFF ∧ k.hdr fArpTpa = some x.ip)) (hes : Proc s.l2.sw 0 k es) : OnlyFaucet p k vid inner es := by
  have hi := rinv ho hP hr
  obtain ⟨es0, es1, k1, rfl, hmir, hst, h3⟩ := first_table_r ho hi.l2.flows hi.l2.present hp ht hk hes
  have h4 := class_arp ho hi.l2.flows hi.rules hi.needed hk hst hty hv hx hvv h3
  have hty1 : k1.hdr fEthType = some typeArp := by rw [hst.hdr _ (by decide), hty]
  have hd1 : k1.hdr fEthDst = some dst := by rw [hst.hdr _ (by decide), hk.to_]
  have h5 := (vip_arp ho hi.l2.flows hi.rules hi.needed hty1 hv hx h4).1 (by
    rcases hus with h | ⟨h1, h2⟩
    · left; rw [hd1, h]
    · right; refine ⟨by rw [hd1, h1]; rfl, ?_⟩
      rw [hst.hdr _ (by decide), h2])
  subst h5
  exact ctrl_only ho.wf hp hk.port hst hmir

/-- **C69.** ARP that does not concern the router, in any VLAN, is switched. -/
theorem arp_switched_partial (ho : c.Ok) (hP : ∀ n, P n → c.Routable n) (hr : Run c (fun k => Wire k ∧ Plain c.l2 k) P s u)
    (hp : p ∈ c.l2.ports) (ht : Takes u p) (hk : Ordinary c.l2 p k vid inner src dst) (hty : k.hdr fEthType = some typeArp)
    (hrv : HasRouter c vid)
    (hother : ∀ w ∈ c.vlans, dst ≠ w.mac ∧ (dst = 0xFFFFFFFFFFFF → ∀ y ∈ w.vips, k.hdr fArpTpa ≠ some y.ip)) (hes : Proc s.l2.sw 0 k es) :
    L2.Flooded c.l2 p k vid inner es ∨
    ∃ q ∈ c.l2.ports, q.In vid ∧ s.l2.Heard dst ∧ L2.Unicast c.l2 p q k vid inner es ∧ ∀ r, s.l2.Knows vid dst r → r.number = q.number := by
  have hi := rinv ho hP hr
  have hw := ho.wf
  have hb := ho.basic
  obtain ⟨v, hv, hvv, hne⟩ := hrv
  obtain ⟨x, hx⟩ := List.exists_mem_of_ne_nil _ hne
  have hgood : ∀ e ∈ es, SameContent k e ∧ Allowed c.l2 p k e := by
    intro e he
    rcases routed_isolation_partial ho hP hr hp hk.wire hk.port hes e he with h | ⟨v, mac, ⟨-, ⟨_, _, -, hf, -⟩, -⟩, -⟩
    · exact h
    · have := hf.1
      rw [hty] at this
      exact absurd (Option.some.inj this) (by decide)
  obtain ⟨es0, es1, k1, hes1, hmir, hst, h3⟩ := first_table_r ho hi.l2.flows hi.l2.present hp ht hk hes
  have h4 := class_arp ho hi.l2.flows hi.rules hi.needed hk hst hty hv hx hvv h3
  have hty1 : k1.hdr fEthType = some typeArp := by rw [hst.hdr _ (by decide), hty]
  have hd1 : k1.hdr fEthDst = some dst := by rw [hst.hdr _ (by decide), hk.to_]
  have hin1 : k1.hdr fInPort = some p.number := by rw [hst.hdr _ (by decide)]; exact hk.port
  have h5 := (vip_arp ho hi.l2.flows hi.rules hi.needed hty1 hv hx h4).2 (by
    intro w hw
    obtain ⟨h1, h2⟩ := hother w hw
    refine ⟨fun h => h1 (by rw [hd1] at h; exact Option.some.inj h), ?_⟩
    intro h y hy
    rw [hst.hdr _ (by decide)]
    exact h2 (by rw [hd1] at h; exact Option.some.inj h) y hy)
  have hbase := out_base ho hi.l2.flows h5 (Or.inl rfl)
  have hpin := L2.carried_in hk.carried
  have hcop : ∀ q ∈ c.l2.ports, q.In vid → copies q es = copies q es1 := by
    intro q hq hqin
    rw [hes1, L2.copies_append, L2.copies_none (es := es0), List.nil_append]
    exact fun e he => L2.mirror_not_member hw hp hpin hq hqin (hmir e he)
  have hone : ∀ q ∈ c.l2.ports, q.In vid → (∃ e, copies q es1 = [e]) → L2.GetsOne q k vid inner es := by
    intro q hq hqin he
    refine L2.gets_one hw hgood hk.carried hq hqin ?_
    rw [hcop q hq hqin]; exact he
  rcases L2.dst_table hw hb hi.l2.flows hi.l2.present hk.to_ hst hbase with h6 | ⟨q, hq, hqin, hknown, hout, b, hbs, hbi⟩
  · left
    obtain ⟨w, hw', hwv⟩ := hw.known p hp vid hpin
    rcases flood_table_any hw hb hi.l2.flows hi.l2.present hp ht hst ⟨w, hw', hwv⟩ hin1
      (fun d hd => L2.not_reserved hk (hst.hdr _ (by decide)) hd) h6 with ⟨-, h8⟩ | ⟨-, h8, -⟩
    · refine ⟨?_, fun q hq hqin hne => hone q hq hqin (h8.2 q hq hqin hne)⟩
      rw [hcop p hp hpin]; exact h8.1
    · exact absurd hpin h8
  · right
    refine ⟨q, hq, hqin, hknown.2, ⟨?_, ?_, ?_⟩, ?_⟩
    · intro r hr hrin hne
      rw [hcop r hr hrin, hout]
      exact (L2.output_copies hb hw hq hqin hp hin1 hr hrin).1 hne
    · rintro rfl
      rw [hcop q hq hqin, hout]
      exact (L2.output_copies hb hw hq hqin hp hin1 hq hqin).2.1 rfl rfl
    · intro hne
      refine hone q hq hqin ?_
      rw [hout]
      exact (L2.output_copies hb hw hq hqin hp hin1 hq hqin).2.2 rfl hne
    · rintro r ⟨e, he, hen⟩
      obtain ⟨j, hj, hsp⟩ := hi.l2.dst vid dst e b hst.small he hbs
      rw [hbi] at hj
      have hjq := L2.dstInst_inj hb hj
      rw [← hen, hjq]
      rcases hsp with h | ⟨h, -⟩
      · exact h.symm
      · exact absurd (L2.hostPort_plain hb j).2.2.1 h

theorem linkLocal_iff {ip : Nat} : linkLocal4 ip = false ↔ ¬ LinkLocal ip := by
  unfold linkLocal4 LinkLocal
  rw [beq_eq_false_iff_ne, ne_eq]
  omega

/-- **C69.** With proactive learning, packets to the router's MAC for one of its addresses in the VLAN go to FAUCET and nobody
else; and so do those for a host of a network that the router is in, if FAUCET has no route for a longer prefix, so that it can
look for the host. -/
theorem to_faucet_partial (ho : c.Ok) (hP : ∀ n, P n → c.Routable n) (hr : Run c (fun k => Wire k ∧ Plain c.l2 k) P s u)
    (hrun : s.l2.ctl.running = true) (hpro : c.proactive = true) (hp : p ∈ c.l2.ports) (ht : Takes u p) (hk : Ordinary c.l2 p k vid inner src dst)
    (hty : k.hdr fEthType = some 0x0800) {w : Route.Vlan} (hw : w ∈ c.vlans) (hwv : w.vid = vid) (hdst : dst = w.mac)
    (hwl : ∃ y ∈ w.vips, ¬ LinkLocal y.ip) {x : Route.Vip} (hv : v ∈ c.vlans) (hx : x ∈ v.vips) (hl : ¬ LinkLocal x.ip)
    {ip : Nat} (hip : k.hdr fIpv4Dst = some ip) {net : Route.Net}
    (hnet : (v.vid = vid ∧ net = Route.hostNet 32 x.ip) ∨ (Route.Serves c.mgr v vid ∧ net = x.net 32)) (hin : net.contains 32 ip = true)
    (hlong : ∀ n', Route.Installed c.mgr s.l2.sw vid n' → n'.contains 32 ip = true → n'.len ≤ net.len)
    (hes : Proc s.l2.sw 0 k es) : OnlyFaucet p k vid inner es := by
  have hi := rinv ho hP hr
  obtain ⟨y, hy, hyl⟩ := hwl
  rw [← linkLocal_iff] at hyl hl
  obtain ⟨es0, es1, k1, rfl, hmir, hst, h3⟩ := first_table_r ho hi.l2.flows hi.l2.present hp ht hk hes
  have hfor : ForRouter c k vid := ⟨hty, w, hw, hwv, List.ne_nil_of_mem hy, by rw [hk.to_, hdst]⟩
  have h4 := class_select ho hi.l2.flows hi.rules hi.needed hk hst hfor h3
  obtain ⟨F, hF, hag⟩ := hi.fib
  have hag := hag hrun
  obtain ⟨hxi, hxl⟩ := ho.vips.vips v hv x hx
  have hok : Route.NetOk 32 net := by
    rcases hnet with ⟨-, rfl⟩ | ⟨-, rfl⟩
    · exact Route.netOk_host hxi
    · exact Route.netOk_vip hxi hxl
  have hputs : Route.Puts (c.vlans.flatMap c.mgr.addVlan) (c.mgr.slot vid net) := by
    refine ⟨c.mgr.vipBody, List.mem_flatMap.2 ⟨v, hv, List.mem_flatMap.2 ⟨x, hx, ?_⟩⟩⟩
    rw [Route.vipFlows_eq]
    rcases hnet with ⟨rfl, rfl⟩ | ⟨hs, rfl⟩
    · exact List.mem_cons_self
    · refine List.mem_cons_of_mem _ ?_
      have hcond : (c.mgr.proactive && !c.mgr.linkLocal x.ip) = true := by
        show (c.proactive && !linkLocal4 x.ip) = true
        rw [hpro, hl]; rfl
      rw [if_pos hcond]
      exact List.mem_map.2 ⟨vid, Route.serves_iff.1 hs, rfl⟩
  have hsl : s.l2.sw.flows (c.mgr.slot vid net) = some c.mgr.vipBody := by
    rw [hag _ rfl (by simp [Route.Mgr.slot, Route.Mgr.routeMatch])]
    have hnP : ¬ P net := by
      intro h
      obtain ⟨-, h⟩ := hP net h
      rcases hnet with ⟨-, hn⟩ | ⟨-, hn⟩
      · exact (h v hv x hx).1 hn
      · exact (h v hv x hx).2 hn
    rw [hF.outside _ rfl]
    · exact (Route.boot_flows c.mgr c.vlans blank _).1 hputs
    · rintro ⟨rv, n, hn, he⟩
      obtain ⟨rfl, -⟩ := Route.slot_net he
      exact hnP hn
  have h5 := fib_vip ho hP hi.l2.flows hF hag hok hsl (ip_stage hst hty hip) hin hlong h4
  have hty1 : k1.hdr fEthType = some typeIp := by rw [hst.hdr _ (by decide)]; exact hty
  have hd1 : k1.hdr fEthDst = some w.mac := by rw [hst.hdr _ (by decide), hk.to_, hdst]
  have h6 := vip_ip ho hi.l2.flows hi.rules hi.needed hty1 hw hy hpro hyl hd1 h5
  subst h6
  exact ctrl_only ho.wf hp hk.port hst hmir

/-- **C69.** Packets for the router to an address in no prefix that the switch has are dropped. -/
theorem no_route_drops_partial (ho : c.Ok) (hP : ∀ n, P n → c.Routable n) (hr : Run c (fun k => Wire k ∧ Plain c.l2 k) P s u)
    (hrun : s.l2.ctl.running = true) (hp : p ∈ c.l2.ports) (ht : Takes u p) (hk : Ordinary c.l2 p k vid inner src dst)
    (hfor : ForRouter c k vid) {ip : Nat} (hip : k.hdr fIpv4Dst = some ip)
    (hno : ∀ n, Route.Installed c.mgr s.l2.sw vid n → n.contains 32 ip = false) (hes : Proc s.l2.sw 0 k es) :
    ∀ e ∈ es, e.port ∈ p.mirror := by
  have hi := rinv ho hP hr
  obtain ⟨es0, es1, k1, rfl, hmir, hst, h3⟩ := first_table_r ho hi.l2.flows hi.l2.present hp ht hk hes
  have h4 := class_select ho hi.l2.flows hi.rules hi.needed hk hst hfor h3
  obtain ⟨F, hF, hag⟩ := hi.fib
  rw [fib_none ho hP hi.l2.flows hF (hag hrun) (ip_stage hst hfor.1 hip) hno h4, List.append_nil]
  exact hmir

end Faucet.Routed
