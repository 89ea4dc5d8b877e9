import Verif.Routed.Inv

/-! # Delivery of routed packets: what the tables do -/

namespace Faucet.Routed
open Faucet.OF
open Faucet.L2 (LPort URule UFlows Stage Carried Wire Needed Ordinary Takes copies Spread)
open Faucet.Learn (iInPort iEthDst iEthSrc iVlan)

variable {c : RCfg} {K : Nat → Prop} {sw : Switch} {u : Nat → Bool} {p : LPort} {k0 k : Pkt} {vid : Nat} {inner : List (Nat × Nat)}
  {src dst : Nat} {es : List Emit}

/-! ## Flooding, whether or not the packet came in through a member -/

theorem spread_any {c : L2.Cfg} (hw : c.WF) (hb : c.Basic) (d : Nat → L2.Dyn) {v : L2.LVlan} (hp : p ∈ c.ports)
    (hk : k.hdr fInPort = some p.number) (eu : Bool) (g : Nat → Option (List (List Action))) :
    Spread c p v.vid (runActs g ((c.fvlan d v).vlanActs eu) k).1 := by
  have h := L2.fvlan_wf hw d v
  have hpi : p.number ≠ portInPort := by have := hw.real p hp; unfold L2.RealPort at this; unfold portInPort; omega
  obtain ⟨pre, T, U, hs, hT, hU⟩ := Flood.ruleActs_shape (c.fvlan d v) eu none false true
  have hnT : portInPort ∉ T := fun hm => Flood.vlan_no_inPort h (Or.inl ((hT _).1 hm))
  have hnU : portInPort ∉ U := fun hm => Flood.vlan_no_inPort h (Or.inr ((hU _).1 hm))
  refine ⟨?_, ?_⟩
  · have := Flood.copies_raw_ingress hs g hk hpi
    rw [if_neg hnT, if_neg hnU] at this
    exact this
  · intro q hq hqin hne
    have hq' := L2.fvlan_ports_mem (d := d) hq hqin
    obtain ⟨ht, hu⟩ := Flood.vlan_mem_iff h hq' hT hU
    have hraw := Flood.copies_raw hs g hk hpi (n := q.number) (fun he => hne (L2.port_inj hw hq hp he)) (h.notInPort _ hq')
    have hm := L2.fport_member hb (d := d) hq hqin eu
    have he := L2.fport_eligible hb (d := d) (v := v) hq none false true
    have hnum : (L2.fport d q).number = q.number := rfl
    rw [hnum] at ht hu
    by_cases hqt : L2.fport d q ∈ (c.fvlan d v).tagged
    · rw [if_pos (ht.2 ⟨hqt, hm, he⟩), if_neg (fun hx => (hu.1 hx).1 hqt)] at hraw
      exact ⟨_, hraw⟩
    · rw [if_neg (fun hx => hqt (ht.1 hx).1), if_pos (hu.2 ⟨hqt, hm, he⟩)] at hraw
      exact ⟨_, hraw⟩

/-- Unicast addresses are not reserved. -/
theorem unicast_not_reserved {mac : Nat} (hk : k.hdr fEthDst = some mac) (hlt : mac < 2 ^ 48) (hu : mac.testBit 40 = false) {d : Nat × Nat}
    (hd : d ∈ Flood.reservedDsts) : (⟨fEthDst, d.1, some d.2⟩ : MatchItem).hits k = false := by
  by_contra hh
  have hh : (⟨fEthDst, d.1, some d.2⟩ : MatchItem).hits k = true := by simpa using hh
  obtain ⟨x, hx, hm⟩ := (hits_masked (by decide) (by decide)).1 hh
  rw [hk] at hx
  obtain rfl := Option.some.inj hx
  obtain ⟨y, hy, hr⟩ := (Flood.reserved_iff hk hlt).1 ⟨d, hd, hm⟩
  rw [hk] at hy
  obtain rfl := Option.some.inj hy
  have hb : mac / 2 ^ 40 % 2 = 0 := by
    rw [Nat.testBit_eq_decide_div_mod_eq] at hu
    have : ¬ (mac / 2 ^ 40 % 2 = 1) := by simpa using hu
    omega
  rcases hr with h | h | ⟨h1, h2⟩ <;> omega

theorem flood_hit_any {c : L2.Cfg} (hw : c.WF) (hb : c.Basic) (hf : UFlows c K sw) (hp : p ∈ c.ports) {p' : LPort} (hst : Stage p' k0 vid inner k)
    (hkin : k.hdr fInPort = some p.number) (hres : ∀ d ∈ Flood.reservedDsts, (⟨fEthDst, d.1, some d.2⟩ : MatchItem).hits k = false)
    {s : Slot} {b : Body} (hhit : Hit sw c.tf k s b) :
    instGoto b.inst = none ∧
    ((s.priority = 0 ∧ (runInst sw b.inst k).1 = []) ∨ (c.combinatorial = false ∨ p.In vid) ∧ Spread c p vid (runInst sw b.inst k).1) := by
  obtain ⟨hc0, hs0, hd0, hf0, hsd, hsf, hdf, hcd, hcf, hcs, hcs', -⟩ := hb.distinct
  obtain ⟨pcp, htags⟩ := hst.tags
  have hr := hf s b hhit.present
  have htab := hhit.table
  have hhits := hhit.hits
  generalize b.inst = inst, b.hard = h1, b.idle = h2 at hr
  cases hr with
  | dVlan => exact absurd htab.symm hf0
  | dClass => exact absurd htab hcf
  | dSrc => exact absurd htab hsf
  | dDst => exact absurd htab hdf
  | dFlood => exact ⟨rfl, Or.inl ⟨rfl, rfl⟩⟩
  | dFib h => exact absurd htab (hb.fib h).flood
  | dVip h => exact absurd htab (hb.vip h).flood
  | untagged => exact absurd htab.symm hf0
  | tagged => exact absurd htab.symm hf0
  | untagMiss => exact absurd htab.symm hf0
  | lldp => exact absurd htab.symm hf0
  | outOnly => exact absurd htab.symm hf0
  | bcast => exact absurd htab hcf
  | ectp => exact absurd htab hcf
  | spoof => exact absurd htab hcf
  | unknown => exact absurd htab hsf
  | src => exact absurd htab hsf
  | ban => exact absurd htab hsf
  | dst => exact absurd htab hdf
  | @reserved d hd =>
    have h := L2.hits_mem hhits (i := ⟨fEthDst, d.1, some d.2⟩) (by simp)
    rw [hres d hd] at h; cases h
  | @floodV d v r hv hr hc =>
    refine ⟨L2.goto_apply _, Or.inr ⟨Or.inl hc, ?_⟩⟩
    have hvid : v.vid = vid := L2.stage_vid hst (hw.vid v hv) hhits (by simp [Flood.Row.items, iVlan])
    subst hvid
    rw [Flood.floodRule_emits]
    exact spread_any hw hb d hp hkin _ _
  | @floodP d v r q hv hr hq hqin hup =>
    have hvid : v.vid = vid := L2.stage_vid hst (hw.vid v hv) hhits (by simp [Flood.Row.items, iVlan])
    subst hvid
    have hqp : q = p := by
      have h := L2.stage_in hst hhits (n := q.number) (L2.row_in r v.vid q.number)
      rw [← hst.hdr _ (by decide), hkin] at h
      exact L2.port_inj hw hq hp (Option.some.inj h).symm
    subst hqp
    refine ⟨L2.goto_apply _, Or.inr ⟨Or.inr hqin, ?_⟩⟩
    rw [Flood.floodRule_emits]
    exact L2.spread_port hw hb d hp hqin hup ⟨⟨pcp, inner, htags⟩, hkin⟩ _ _ _

/-- In the flood table: every other member gets one copy, unless flooding is per port and the packet did not come in through a
member, when nobody does. -/
theorem flood_table_any {c : L2.Cfg} (hw : c.WF) (hb : c.Basic) (hf : UFlows c K sw) (hn : ∀ sl, Needed c u sl → sw.flows sl ≠ none)
    (hp : p ∈ c.ports) (ht : Takes u p) {p' : LPort} (hst : Stage p' k0 vid inner k) (hknown : ∃ v ∈ c.vlans, v.vid = vid)
    (hkin : k.hdr fInPort = some p.number) (hres : ∀ d ∈ Flood.reservedDsts, (⟨fEthDst, d.1, some d.2⟩ : MatchItem).hits k = false)
    (hes : Proc sw c.tf k es) :
    ((c.combinatorial = false ∨ p.In vid) ∧ Spread c p vid es) ∨ (c.combinatorial = true ∧ ¬ p.In vid ∧ es = []) := by
  obtain ⟨v, hv, hvid⟩ := hknown
  obtain ⟨pcp, htags⟩ := hst.tags
  subst hvid
  have hrow : Flood.RowMatches ⟨true, none, none⟩ k := ⟨fun _ _ h => (by cases h), fun _ h => (by cases h)⟩
  have hneed : ∀ sl, Needed c u sl → sl.table = c.tf → 0 < sl.priority → hitsAll sl.items k = true →
      (c.combinatorial = false ∨ p.In v.vid) ∧ Spread c p v.vid es := by
    intro sl hsl h1 h2 h3
    obtain ⟨s, b, hhit, hle, hcase⟩ := L2.proc_hit hes (hn sl hsl) h1 h3
    obtain ⟨h4, h5⟩ := flood_hit_any hw hb hf hp hst hkin hres hhit
    rcases hcase with ⟨-, rfl⟩ | ⟨m, es', h6, -⟩
    · rcases h5 with ⟨h5, -⟩ | h5
      · omega
      · exact h5
    · rw [h4] at h6; cases h6
  have hempty : ∀ (_ : ¬ (c.combinatorial = false ∨ p.In v.vid)), es = [] := by
    intro hno
    cases hes with
    | miss _ => rfl
    | done hhit hg =>
      rcases (flood_hit_any hw hb hf hp hst hkin hres hhit).2 with ⟨-, h⟩ | h
      · exact h
      · exact absurd h.1 hno
    | next hhit hg _ => rw [(flood_hit_any hw hb hf hp hst hkin hres hhit).1] at hg; cases hg
  cases hc : c.combinatorial with
  | false =>
    have h := hneed _ (.floodV hv (L2.flood_row c) hc) rfl (by show 0 < Flood.Row.priority _; decide)
      ((Flood.rowRule_hits (v := c.fvlan (fun _ => {}) v) (i := none) (hw.vid v hv) htags hst.small).2 ⟨(by intro n h; cases h), hrow, rfl⟩)
    exact Or.inl ⟨Or.inl rfl, h.2⟩
  | true =>
    by_cases hin : p.In v.vid
    · left
      refine ⟨Or.inr hin, ?_⟩
      by_cases hq : ∃ q ∈ c.ports, q.In v.vid ∧ q ≠ p
      · obtain ⟨q, hq, hqin, hne⟩ := hq
        refine (hneed _ (.floodP hv (L2.flood_row c) hc hp ht.1 ht.2.2 hin hq hqin hne) rfl
          (by show 0 < Flood.Row.priority _ + 1; omega) ?_).2
        exact (Flood.rowRule_hits (v := c.fvlan (fun _ => {}) v) (i := some p.number) (hw.vid v hv) htags hst.small).2
          ⟨(by intro n h; cases h; exact hkin), hrow, rfl⟩
      · have hnone : ∀ q ∈ c.ports, q.In v.vid → q ≠ p → ∃ e, copies q es = [e] := fun q hq' hin hne => absurd ⟨q, hq', hin, hne⟩ hq
        refine ⟨?_, hnone⟩
        cases hes with
        | miss _ => rfl
        | done hhit hg =>
          rcases (flood_hit_any hw hb hf hp hst hkin hres hhit).2 with ⟨-, h⟩ | h
          · rw [h]; rfl
          · exact h.2.1
        | next hhit hg _ => rw [(flood_hit_any hw hb hf hp hst hkin hres hhit).1] at hg; cases hg
    · right
      refine ⟨rfl, hin, hempty ?_⟩
      rintro (h | h)
      · rw [hc] at h; cases h
      · exact hin h

/-! ## The first table and classification -/

/-- The first table of a switch with rules of routing is that of the switch without. -/
theorem first_table_r (ho : c.Ok) (hf : UFlows c.l2 K (c.base sw)) (hn : ∀ sl, Needed c.l2 u sl → (c.base sw).flows sl ≠ none) (hp : p ∈ c.l2.ports)
    (ht : Takes u p) (hk : Ordinary c.l2 p k0 vid inner src dst) (hes : Proc sw 0 k0 es) :
    ∃ es0 es1 k, es = es0 ++ es1 ∧ (∀ e ∈ es0, e.port ∈ p.mirror) ∧ Stage p k0 vid inner k ∧ Proc sw c.l2.tc k es1 := by
  refine L2.first_table_hit ho.wf ho.basic (K := K) ?_ ?_ hp ht hk hes
  · intro s b hh
    exact hf s b (hit_base hh (l2_tables ho (Or.inr (Or.inr hh.table)))).present
  · intro sl hs h0
    have := hn sl hs
    rw [base_flows] at this
    split at this
    · exact absurd rfl this
    · exact this

/-- A packet for the router goes to the FIB. -/
theorem class_select (ho : c.Ok) (hf : UFlows c.l2 K (c.base sw)) (hr : RFlows c sw) (hn : ∀ sl, RNeeded c sl → sw.flows sl ≠ none)
    (hk : Ordinary c.l2 p k0 vid inner src dst) (hst : Stage p k0 vid inner k) (hfor : ForRouter c k0 vid)
    (hes : Proc sw c.l2.tc k es) : Proc sw c.l2.tfib k es := by
  obtain ⟨hc0, hs0, hd0, hf0, hsd, hsf, hdf, hcd, hcf, hcs, hcs', -⟩ := ho.basic.distinct
  have hF := ho.basic.fib ho.ipv4
  have hV := ho.basic.vip ho.ipv4
  obtain ⟨hf1, hf2, hf3⟩ := L2.not_filtered hk hst
  obtain ⟨hty, w, hw, rfl, hne, hdst⟩ := hfor
  obtain ⟨x, hx⟩ := List.exists_mem_of_ne_nil _ hne
  obtain ⟨pcp, htags⟩ := hst.tags
  have hkty : k.hdr fEthType = some typeIp := by rw [hst.hdr _ (by decide), hty]
  have hkdst : k.hdr fEthDst = some w.mac := by rw [hst.hdr _ (by decide), hdst]
  obtain ⟨s, b, hhit, hle, hcase⟩ := L2.proc_hit hes (hn _ (.selIp hw hx)) rfl (by
    simp [hitsAll, L2.hits_vlan.2 ⟨(w.vid, pcp), inner, htags, rfl⟩, (hits_exact (f := fEthDst) (v := w.mac) (by decide) (by decide)).2 hkdst, iEthDst, iType,
      (hits_exact (f := fEthType) (v := typeIp) (by decide) (by decide)).2 hkty])
  have hle : highPriority ≤ s.priority := hle
  have htab := hhit.table
  have hhits := hhit.hits
  cases hs : c.routing s with
  | true =>
    have hrr := hr s b hs hhit.present
    cases hrr with
    | selArp _ _ =>
      have h := (hits_exact (f := fEthType) (by decide) (by decide)).1 (L2.hits_mem hhits (i := iType typeArp) (by simp))
      rw [hkty] at h
      exact absurd (Option.some.inj h) (by decide)
    | selIp _ _ => exact L2.hit_goto hhit rfl hcase
    | vipAsk | vipReply | vipArp | icmpUs | icmp | ipUs | ip => exact absurd htab hV.cls
    | route | hole | vip => exact absurd htab hF.cls
  | false =>
    exfalso
    have hru := hf s b (hit_base hhit hs).present
    generalize b.inst = inst, b.hard = h1, b.idle = h2 at hru
    cases hru with
    | dVlan | dClass | dSrc | dDst | dFlood | dFib | dVip => exact absurd (show highPriority ≤ 0 from hle) (by decide)
    | untagged | tagged | untagMiss | lldp | outOnly => exact absurd htab.symm hc0
    | bcast => have := L2.hits_mem hhits (i := iEthSrc L2.broadcastMac) (by simp); rw [hf1] at this; cases this
    | ectp => have := L2.hits_mem hhits (i := ⟨fEthType, L2.ectpType, none⟩) (by simp); rw [hf2] at this; cases this
    | @spoof v hv => have := L2.hits_mem hhits (i := iEthSrc v.faucetMac) (by simp); rw [hf3 v hv] at this; cases this
    | unknown => exact absurd (show highPriority ≤ lowPriority from hle) (by decide)
    | src => exact absurd (show highPriority ≤ matchPriority - 1 from hle) (by decide)
    | ban => exact absurd (show highPriority ≤ lowPriority + 1 from hle) (by decide)
    | dst => exact absurd htab.symm hcd
    | reserved | floodV | floodP => exact absurd htab.symm hcf

/-! ## The FIB -/

theorem ip_stage (hst : Stage p k0 vid inner k) (hty : k0.hdr fEthType = some typeIp) {ip : Nat} (hip : k0.hdr fIpv4Dst = some ip) :
    Route.IpPkt c.mgr k vid ip where
  tag := by obtain ⟨pcp, h⟩ := hst.tags; exact ⟨pcp, inner, h⟩
  vid := hst.small
  type := by rw [hst.hdr _ (by decide)]; exact hty
  dst := by
    show k.hdr fIpv4Dst = some ip
    rw [hst.hdr _ (by decide)]; exact hip

/-- A rule of the FIB with a priority is one of routing. -/
theorem fib_rule (ho : c.Ok) (hf : UFlows c.l2 K (c.base sw)) {s : Slot} {b : Body} (h : sw.flows s = some b) (ht : s.table = c.l2.tfib)
    (hpr : 0 < s.priority) : s.items ≠ [] := by
  have hF := ho.basic.fib ho.ipv4
  have hFV : c.l2.tfib ≠ c.l2.tvip := (ho.basic.distinctR ho.ipv4).2
  intro he
  have hs : c.routing s = false := by
    rw [← Bool.not_eq_true, routing_iff]
    rintro (⟨-, h⟩ | ⟨h, -⟩)
    · exact h he
    · rw [ht] at h; exact hF.cls h
  have hr := hf s b (by rw [base_flows, hs]; exact h)
  generalize b.inst = inst, b.hard = h1, b.idle = h2 at hr
  cases hr with
  | dVlan | dClass | dSrc | dDst | dFlood | dFib | dVip => exact absurd hpr (by simp)
  | untagged | tagged | untagMiss | outOnly | lldp => exact absurd ht.symm hF.zero
  | bcast | ectp | spoof => exact absurd ht.symm hF.cls
  | unknown | src | ban => exact absurd ht.symm hF.src
  | dst => exact absurd ht.symm hF.dst
  | reserved | floodV | floodP => exact absurd ht.symm hF.flood

/-- The FIB is that of the routing state, as far as packets of IPv4 are concerned. -/
theorem fib_hit (ho : c.Ok) {P : Route.Net → Prop} (hP : ∀ n, P n → c.Routable n) (hf : UFlows c.l2 K (c.base sw)) {st : Route.St} {F : Slot → Option Body}
    (hF : Route.Inv c.mgr c.vlans P c.start st F)
    (hag : ∀ sl, sl.table = c.l2.tfib → sl.items ≠ [] → sw.flows sl = F sl) {v : Route.Vlan} (hv : v ∈ c.vlans)
    {net : Route.Net} {gw mac : Nat} (hroute : (st v.vid).routes.get? net = some gw) (hmac : ∃ n, (st v.vid).cache.get? gw = some n ∧ n.eth = some mac)
    {ip : Nat} (hserves : Route.Serves c.mgr v vid) (hp : Route.IpPkt c.mgr k vid ip) (hin : net.contains 32 ip = true)
    (hlong : ∀ n', Route.Installed c.mgr sw vid n' → n'.contains 32 ip = true → n'.len ≤ net.len) (hes : Proc sw c.l2.tfib k es) :
    Proc sw c.l2.td (runInst sw (c.mgr.routeBody v mac).inst k).2 es := by
  have hrv := Route.serves_iff.1 hserves
  have heth : (st v.vid).eth gw = some mac := by
    obtain ⟨n, h1, h2⟩ := hmac
    unfold Route.VState.eth
    rw [h1]
    exact h2
  have hflow := hF.full v hv net gw mac vid hroute heth hrv
  have hok : Route.NetOk 32 net := (hP net (hF.allowed v hv net (by rw [hroute]; simp))).1
  have hitems : ∀ rv n, (c.mgr.slot rv n).items ≠ [] := fun rv n => by simp [Route.Mgr.slot, Route.Mgr.routeMatch]
  have hsl : sw.flows (c.mgr.slot vid net) = some (c.mgr.routeBody v mac) := by rw [hag _ rfl (hitems _ _)]; exact hflow
  obtain ⟨s, b, hhit, hle, hcase⟩ := L2.proc_hit hes (sl := c.mgr.slot vid net) (by rw [hsl]; simp) rfl
    ((Route.hits_slot ho.vips.field hp hok).2 ⟨rfl, hin⟩)
  have hlpm : Route.lpmPriority ≤ s.priority := by
    have : Route.lpmPriority + net.len ≤ s.priority := by simpa [Route.Mgr.slot, Route.Mgr.routePriority] using hle
    omega
  have hlp : 0 < Route.lpmPriority := by decide
  have hshape := fun (s : Slot) (b : Body) (h : (⟨F, sw.groups, sw.meters⟩ : Switch).flows s = some b) (ht : s.table = c.mgr.fib.id) =>
    Route.shape (sw := ⟨F, sw.groups, sw.meters⟩) ho.vips blank_ok (fun n hn => (hP n hn).1) hF h ht
  have hhitF : Hit ⟨F, sw.groups, sw.meters⟩ c.mgr.fib.id k s b := by
    refine ⟨?_, hhit.table, hhit.hits, ?_⟩
    · show F s = some b
      rw [← hag s hhit.table (fib_rule ho hf hhit.present hhit.table (by omega))]; exact hhit.present
    · intro s' b' h1 h2 h3
      rcases hshape s' b' h1 h2 with h | ⟨rv, n, rfl, hn⟩
      · omega
      · exact hhit.best _ b' (by rw [hag _ rfl (hitems _ _)]; exact h1) h2 h3
  have hin' : net.contains c.mgr.width ip = true := hin
  obtain ⟨n, rfl, hn, hcn, hbest⟩ := Route.longest_of_shape ho.vips.field hshape hp ⟨net, ⟨_, hflow⟩, hin'⟩ hhitF
  have h1 := hbest net ⟨_, hflow⟩ hin'
  have h2 := hlong n ⟨b, hhit.present⟩ hcn
  have h3 := h1.2 (by omega)
  subst h3
  have := hhit.present
  rw [hsl] at this
  injection this with this
  subst this
  obtain ⟨pcp, rest, htag⟩ := hp.tag
  have hr0 := (run_route (sw := sw) ho hv hrv mac htag rfl).1
  rcases hcase with ⟨h, -⟩ | ⟨m, es', h4, h5, h6⟩
  · simp [Route.Mgr.routeBody, instGoto] at h
  · have hm' : m = c.mgr.toL2 := by simpa [Route.Mgr.routeBody, instGoto, eq_comm] using h4
    have hm' : m = c.l2.td := hm'.trans (outId_eq ho)
    subst hm'
    rw [hr0, List.nil_append] at h6
    rw [h6]; exact h5

/-- A packet for the router that is in no prefix the FIB has is dropped. -/
theorem fib_none (ho : c.Ok) {P : Route.Net → Prop} (hP : ∀ n, P n → c.Routable n) (hf : UFlows c.l2 K (c.base sw)) {st : Route.St} {F : Slot → Option Body}
    (hF : Route.Inv c.mgr c.vlans P c.start st F)
    (hag : ∀ sl, sl.table = c.l2.tfib → sl.items ≠ [] → sw.flows sl = F sl) {ip : Nat} (hp : Route.IpPkt c.mgr k vid ip)
    (hno : ∀ n, Route.Installed c.mgr sw vid n → n.contains 32 ip = false) (hes : Proc sw c.l2.tfib k es) : es = [] := by
  have hhit : ∀ s b, Hit sw c.l2.tfib k s b → instGoto b.inst = none ∧ (runInst sw b.inst k).1 = [] := by
    intro s b hh
    by_cases hi : s.items = []
    · have hs : c.routing s = false := by
        rw [← Bool.not_eq_true, routing_iff]
        rintro (⟨-, h⟩ | ⟨h, -⟩)
        · exact h hi
        · rw [hh.table] at h; exact (ho.basic.fib ho.ipv4).cls h
      have hr := hf s b (by rw [base_flows, hs]; exact hh.present)
      have htab := hh.table
      have hF := ho.basic.fib ho.ipv4
      generalize b.inst = inst, b.hard = h1, b.idle = h2 at hr
      cases hr with
      | dFib => exact ⟨rfl, rfl⟩
      | dVip => exact ⟨rfl, rfl⟩
      | dVlan => exact ⟨rfl, rfl⟩
      | dFlood => exact ⟨rfl, rfl⟩
      | dClass => exact absurd htab.symm hF.cls
      | dSrc => exact absurd htab.symm hF.src
      | dDst => exact absurd htab.symm hF.dst
      | untagged | tagged | untagMiss | outOnly | lldp => exact absurd htab.symm hF.zero
      | bcast | ectp | spoof => exact absurd htab.symm hF.cls
      | unknown | src | ban => exact absurd htab.symm hF.src
      | dst => exact absurd htab.symm hF.dst
      | reserved | floodV | floodP => exact absurd htab.symm hF.flood
    · exfalso
      have hpr := hh.present
      rw [hag s hh.table hi] at hpr
      rcases Route.shape (sw := ⟨F, sw.groups, sw.meters⟩) ho.vips blank_ok (fun n hn => (hP n hn).1) hF hpr hh.table with h | ⟨rv, n, rfl, hn⟩
      · by_cases hx : ∃ rv dst, P dst ∧ s = c.mgr.slot rv dst
        · obtain ⟨rv, n, -, rfl⟩ := hx
          simp [Route.Mgr.slot, Route.Mgr.routePriority] at h
        · rw [hF.outside s hh.table hx] at hpr
          rcases (Route.boot_shape ho.vips blank_ok hpr hh.table).2.2 with h' | ⟨-, rv, n, rfl, -⟩
          · have hb := (Route.boot_flows c.mgr c.vlans blank s).2
            have hp' := (Route.boot_flows c.mgr c.vlans blank s).1
            by_cases hput : Route.Puts (c.vlans.flatMap c.mgr.addVlan) s
            · obtain ⟨b', hb'⟩ := hput
              obtain ⟨v, _, y, _, rv, h1 | h1⟩ := Route.addVlan_puts c.mgr c.vlans _ hb'
              · have := (Route.put_inj h1).1
                subst this
                simp [Route.Mgr.slot, Route.Mgr.routePriority] at h
              · have := (Route.put_inj h1).1
                subst this
                simp [Route.Mgr.slot, Route.Mgr.routePriority] at h
            · have h3 := hb hput
              have : c.start s = none := h3
              rw [this] at hpr; cases hpr
          · simp [Route.Mgr.slot, Route.Mgr.routePriority] at h
      · obtain ⟨h1, h2⟩ := (Route.hits_slot ho.vips.field hp hn).1 hh.hits
        have := hno n ⟨b, by rw [← Route.slot_vid h1]; exact hh.present⟩
        have h2 : n.contains 32 ip = true := h2
        rw [this] at h2; cases h2
  cases hes with
  | miss _ => rfl
  | done hh _ => exact (hhit _ _ hh).2
  | next hh hg _ => rw [(hhit _ _ hh).1] at hg; cases hg

/-- The FIB sends packets for addresses of the router, and for hosts of its networks without routes of their own, to the VIP table. -/
theorem fib_vip (ho : c.Ok) {P : Route.Net → Prop} (hP : ∀ n, P n → c.Routable n) (hf : UFlows c.l2 K (c.base sw)) {st : Route.St} {F : Slot → Option Body}
    (hF : Route.Inv c.mgr c.vlans P c.start st F)
    (hag : ∀ sl, sl.table = c.l2.tfib → sl.items ≠ [] → sw.flows sl = F sl) {net : Route.Net} (hok : Route.NetOk 32 net)
    (hsl : sw.flows (c.mgr.slot vid net) = some c.mgr.vipBody) {ip : Nat} (hp : Route.IpPkt c.mgr k vid ip) (hin : net.contains 32 ip = true)
    (hlong : ∀ n', Route.Installed c.mgr sw vid n' → n'.contains 32 ip = true → n'.len ≤ net.len) (hes : Proc sw c.l2.tfib k es) :
    Proc sw c.l2.tvip k es := by
  have hitems : ∀ rv n, (c.mgr.slot rv n).items ≠ [] := fun rv n => by simp [Route.Mgr.slot, Route.Mgr.routeMatch]
  have hflow : F (c.mgr.slot vid net) = some c.mgr.vipBody := by rw [← hag _ rfl (hitems _ _)]; exact hsl
  obtain ⟨s, b, hhit, hle, hcase⟩ := L2.proc_hit hes (sl := c.mgr.slot vid net) (by rw [hsl]; simp) rfl
    ((Route.hits_slot ho.vips.field hp hok).2 ⟨rfl, hin⟩)
  have hlpm : Route.lpmPriority ≤ s.priority := by
    have : Route.lpmPriority + net.len ≤ s.priority := by simpa [Route.Mgr.slot, Route.Mgr.routePriority] using hle
    omega
  have hlp : 0 < Route.lpmPriority := by decide
  have hshape := fun (s : Slot) (b : Body) (h : (⟨F, sw.groups, sw.meters⟩ : Switch).flows s = some b) (ht : s.table = c.mgr.fib.id) =>
    Route.shape (sw := ⟨F, sw.groups, sw.meters⟩) ho.vips blank_ok (fun n hn => (hP n hn).1) hF h ht
  have hhitF : Hit ⟨F, sw.groups, sw.meters⟩ c.mgr.fib.id k s b := by
    refine ⟨?_, hhit.table, hhit.hits, ?_⟩
    · show F s = some b
      rw [← hag s hhit.table (fib_rule ho hf hhit.present hhit.table (by omega))]; exact hhit.present
    · intro s' b' h1 h2 h3
      rcases hshape s' b' h1 h2 with h | ⟨rv, n, rfl, hn⟩
      · omega
      · exact hhit.best _ b' (by rw [hag _ rfl (hitems _ _)]; exact h1) h2 h3
  have hin' : net.contains c.mgr.width ip = true := hin
  obtain ⟨n, rfl, hn, hcn, hbest⟩ := Route.longest_of_shape ho.vips.field hshape hp ⟨net, ⟨_, hflow⟩, hin'⟩ hhitF
  have h1 := hbest net ⟨_, hflow⟩ hin'
  have h2 := hlong n ⟨b, hhit.present⟩ hcn
  have h3 := h1.2 (by omega)
  subst h3
  have := hhit.present
  rw [hsl] at this
  injection this with this
  subst this
  exact L2.hit_goto hhit rfl hcase

/-! ## The VIP table -/

theorem vip_rule (ho : c.Ok) (hf : UFlows c.l2 K (c.base sw)) (hr : RFlows c sw) {s : Slot} {b : Body} (h : sw.flows s = some b) (ht : s.table = c.l2.tvip)
    (hpr : 0 < s.priority) : RRule c s b := by
  have hV := ho.basic.vip ho.ipv4
  cases hs : c.routing s with
  | true => exact hr s b hs h
  | false =>
    exfalso
    have hr := hf s b (by rw [base_flows, hs]; exact h)
    generalize b.inst = inst, b.hard = h1, b.idle = h2 at hr
    cases hr with
    | dVlan | dClass | dSrc | dDst | dFlood | dFib | dVip => exact absurd hpr (by simp)
    | untagged | tagged | untagMiss | outOnly | lldp => exact absurd ht.symm hV.zero
    | bcast | ectp | spoof => exact absurd ht.symm hV.cls
    | unknown | src | ban => exact absurd ht.symm hV.src
    | dst => exact absurd ht.symm hV.dst
    | reserved | floodV | floodP => exact absurd ht.symm hV.flood

theorem ctrl_done {t : Nat} {s : Slot} {b : Body} (_ : Hit sw t k s b) (hi : b.inst = [.apply [.output portController]])
    (h : (instGoto b.inst = none ∧ es = (runInst sw b.inst k).1) ∨
       ∃ n es', instGoto b.inst = some n ∧ Proc sw n (runInst sw b.inst k).2 es' ∧ es = (runInst sw b.inst k).1 ++ es') :
    es = emitPort k portController := by
  rw [hi] at h
  rcases h with ⟨-, h⟩ | ⟨m, es', h1, -⟩
  · rw [h]; simp [runInst, instActs, runActs]
  · simp [instGoto] at h1

/-- ARP in the VIP table: FAUCET gets what is for the router, the rest is switched. -/
theorem vip_arp (ho : c.Ok) (hf : UFlows c.l2 K (c.base sw)) (hr : RFlows c sw) (hn : ∀ sl, RNeeded c sl → sw.flows sl ≠ none)
    (hty : k.hdr fEthType = some typeArp) {v : Route.Vlan} {x : Route.Vip} (hv : v ∈ c.vlans) (hx : x ∈ v.vips) (hes : Proc sw c.l2.tvip k es) :
    ((k.hdr fEthDst = some v.mac ∨ (k.hdr fEthDst = some L2.broadcastMac ∧ k.hdr fArpTpa = some x.ip)) → es = emitPort k portController) ∧
    ((∀ w ∈ c.vlans, k.hdr fEthDst ≠ some w.mac ∧ (k.hdr fEthDst = some L2.broadcastMac → ∀ y ∈ w.vips, k.hdr fArpTpa ≠ some y.ip)) →
      Proc sw c.l2.td k es) := by
  have hF := ho.basic.fib ho.ipv4
  have hV := ho.basic.vip ho.ipv4
  have hFV : c.l2.tfib ≠ c.l2.tvip := (ho.basic.distinctR ho.ipv4).2
  have hip : ∀ {s : Slot}, iType typeIp ∈ s.items → hitsAll s.items k = true → False := by
    intro s hm hh
    have h := (hits_exact (f := fEthType) (by decide) (by decide)).1 (L2.hits_mem hh hm)
    rw [hty] at h
    exact absurd (Option.some.inj h) (by decide)
  have hit : (iType typeArp).hits k = true := (hits_exact (by decide) (by decide)).2 hty
  constructor
  · intro hus
    obtain ⟨sl, hsl, htab, hpr, hh⟩ : ∃ sl, sw.flows sl ≠ none ∧ sl.table = c.l2.tvip ∧ sl.priority = Route.lpmPriority + 32 ∧ hitsAll sl.items k = true := by
      rcases hus with h | ⟨h1, h2⟩
      · exact ⟨_, hn _ (.vipReply hv hx), rfl, rfl, by
          simp [hitsAll, hit, (hits_exact (f := fEthDst) (v := v.mac) (by decide) (by decide)).2 h, iEthDst]⟩
      · exact ⟨_, hn _ (.vipAsk hv hx), rfl, rfl, by
          simp [hitsAll, hit, (hits_exact (f := fEthDst) (v := L2.broadcastMac) (by decide) (by decide)).2 h1, iEthDst, iTpa,
            (hits_exact (f := fArpTpa) (v := x.ip) (by decide) (by decide)).2 h2]⟩
    obtain ⟨s, b, hhit, hle, hcase⟩ := L2.proc_hit hes hsl htab hh
    rw [hpr] at hle
    have hrr := vip_rule ho hf hr hhit.present hhit.table (by omega)
    have htab := hhit.table
    have hhits := hhit.hits
    cases hrr with
    | selArp | selIp => exact absurd htab.symm hV.cls
    | vipAsk | vipReply => exact ctrl_done hhit rfl hcase
    | vipArp => exact absurd (show Route.lpmPriority + 32 ≤ Route.lpmPriority + 31 from hle) (by omega)
    | icmpUs | icmp | ipUs | ip => exact (hip (by simp) hhits).elim
    | route | hole | vip => exact absurd htab hFV
  · intro hother
    obtain ⟨s, b, hhit, hle, hcase⟩ := L2.proc_hit hes (hn _ (.vipArp hv hx)) rfl (by simp [hitsAll, hit])
    have hle : Route.lpmPriority + 31 ≤ s.priority := hle
    have hrr := vip_rule ho hf hr hhit.present hhit.table (by omega)
    have htab := hhit.table
    have hhits := hhit.hits
    cases hrr with
    | selArp | selIp => exact absurd htab.symm hV.cls
    | @vipAsk w y hw hy =>
      have h1 := (hits_exact (f := fEthDst) (by decide) (by decide)).1 (L2.hits_mem hhits (i := iEthDst L2.broadcastMac) (by simp))
      have h2 := (hits_exact (f := fArpTpa) (by decide) (by decide)).1 (L2.hits_mem hhits (i := iTpa y.ip) (by simp))
      exact absurd h2 ((hother w hw).2 h1 y hy)
    | @vipReply w hw =>
      have h1 := (hits_exact (f := fEthDst) (by decide) (by decide)).1 (L2.hits_mem hhits (i := iEthDst w.mac) (by simp))
      exact absurd h1 (hother w hw).1
    | vipArp => exact L2.hit_goto hhit rfl hcase
    | icmpUs | icmp | ipUs | ip => exact (hip (by simp) hhits).elim
    | route | hole | vip => exact absurd htab hFV

/-- IPv4 to the router in the VIP table: FAUCET gets it. -/
theorem vip_ip (ho : c.Ok) (hf : UFlows c.l2 K (c.base sw)) (hr : RFlows c sw) (hn : ∀ sl, RNeeded c sl → sw.flows sl ≠ none)
    (hty : k.hdr fEthType = some typeIp) {v : Route.Vlan} {x : Route.Vip} (hv : v ∈ c.vlans) (hx : x ∈ v.vips) (hpro : c.proactive = true)
    (hl : linkLocal4 x.ip = false) (hdst : k.hdr fEthDst = some v.mac) (hes : Proc sw c.l2.tvip k es) : es = emitPort k portController := by
  have hV := ho.basic.vip ho.ipv4
  have hFV : c.l2.tfib ≠ c.l2.tvip := (ho.basic.distinctR ho.ipv4).2
  have harp : ∀ {s : Slot}, iType typeArp ∈ s.items → hitsAll s.items k = true → False := by
    intro s hm hh
    have h := (hits_exact (f := fEthType) (by decide) (by decide)).1 (L2.hits_mem hh hm)
    rw [hty] at h
    exact absurd (Option.some.inj h) (by decide)
  have hit : (iType typeIp).hits k = true := (hits_exact (by decide) (by decide)).2 hty
  have hid : (iEthDst v.mac).hits k = true := (hits_exact (by decide) (by decide)).2 hdst
  obtain ⟨s, b, hhit, hle, hcase⟩ := L2.proc_hit hes (hn _ (.ipUs hv hx hpro hl)) rfl (by simp [hitsAll, hit, hid])
  have hle : Route.lpmPriority + 29 ≤ s.priority := hle
  have hrr := vip_rule ho hf hr hhit.present hhit.table (by omega)
  have htab := hhit.table
  have hhits := hhit.hits
  cases hrr with
  | selArp | selIp => exact absurd htab.symm hV.cls
  | vipAsk | vipReply | vipArp => exact (harp (by simp) hhits).elim
  | icmpUs | ipUs => exact ctrl_done hhit rfl hcase
  | icmp =>
    obtain ⟨b', hb'⟩ := Option.ne_none_iff_exists'.1 (hn _ (.icmpUs hv hx hpro hl))
    have := hhit.best _ b' hb' rfl (by simp [hitsAll, hit, hid, L2.hits_mem hhits (i := iProto 1) (by simp)])
    exact absurd (show Route.lpmPriority + 31 ≤ Route.lpmPriority + 30 from this) (by omega)
  | ip => exact absurd (show Route.lpmPriority + 29 ≤ Route.lpmPriority + 28 from hle) (by omega)
  | route | hole | vip => exact absurd htab hFV

/-- ARP in a VLAN with addresses of the router goes to the VIP table. -/
theorem class_arp (ho : c.Ok) (hf : UFlows c.l2 K (c.base sw)) (hr : RFlows c sw) (hn : ∀ sl, RNeeded c sl → sw.flows sl ≠ none)
    (hk : Ordinary c.l2 p k0 vid inner src dst) (hst : Stage p k0 vid inner k) (hty : k0.hdr fEthType = some typeArp)
    {w : Route.Vlan} {x : Route.Vip} (hw : w ∈ c.vlans) (hx : x ∈ w.vips) (hwv : w.vid = vid) (hes : Proc sw c.l2.tc k es) : Proc sw c.l2.tvip k es := by
  obtain ⟨hc0, hs0, hd0, hf0, hsd, hsf, hdf, hcd, hcf, hcs, hcs', -⟩ := ho.basic.distinct
  have hF := ho.basic.fib ho.ipv4
  have hV := ho.basic.vip ho.ipv4
  obtain ⟨hf1, hf2, hf3⟩ := L2.not_filtered hk hst
  subst hwv
  obtain ⟨pcp, htags⟩ := hst.tags
  have hkty : k.hdr fEthType = some typeArp := by rw [hst.hdr _ (by decide), hty]
  obtain ⟨s, b, hhit, hle, hcase⟩ := L2.proc_hit hes (hn _ (.selArp hw hx)) rfl (by
    simp [hitsAll, L2.hits_vlan.2 ⟨(w.vid, pcp), inner, htags, rfl⟩, iType, (hits_exact (f := fEthType) (v := typeArp) (by decide) (by decide)).2 hkty])
  have hle : highPriority ≤ s.priority := hle
  have htab := hhit.table
  have hhits := hhit.hits
  cases hs : c.routing s with
  | true =>
    have hrr := hr s b hs hhit.present
    cases hrr with
    | selArp _ _ => exact L2.hit_goto hhit rfl hcase
    | selIp _ _ =>
      have h := (hits_exact (f := fEthType) (by decide) (by decide)).1 (L2.hits_mem hhits (i := iType typeIp) (by simp))
      rw [hkty] at h
      exact absurd (Option.some.inj h) (by decide)
    | vipAsk | vipReply | vipArp | icmpUs | icmp | ipUs | ip => exact absurd htab hV.cls
    | route | hole | vip => exact absurd htab hF.cls
  | false =>
    exfalso
    have hru := hf s b (hit_base hhit hs).present
    generalize b.inst = inst, b.hard = h1, b.idle = h2 at hru
    cases hru with
    | dVlan | dClass | dSrc | dDst | dFlood | dFib | dVip => exact absurd (show highPriority ≤ 0 from hle) (by decide)
    | untagged | tagged | untagMiss | lldp | outOnly => exact absurd htab.symm hc0
    | bcast => have := L2.hits_mem hhits (i := iEthSrc L2.broadcastMac) (by simp); rw [hf1] at this; cases this
    | ectp => have := L2.hits_mem hhits (i := ⟨fEthType, L2.ectpType, none⟩) (by simp); rw [hf2] at this; cases this
    | @spoof v hv => have := L2.hits_mem hhits (i := iEthSrc v.faucetMac) (by simp); rw [hf3 v hv] at this; cases this
    | unknown => exact absurd (show highPriority ≤ lowPriority from hle) (by decide)
    | src => exact absurd (show highPriority ≤ matchPriority - 1 from hle) (by decide)
    | ban => exact absurd (show highPriority ≤ lowPriority + 1 from hle) (by decide)
    | dst => exact absurd htab.symm hcd
    | reserved | floodV | floodP => exact absurd htab.symm hcf

/-! ## Packets that routing does not concern -/

theorem unselected_base (ho : c.Ok) (hf : UFlows c.l2 K (c.base sw)) (hr : RFlows c sw) (hp : p ∈ c.l2.ports) (hk : Wire k0)
    (hin : k0.hdr fInPort = some p.number) (hcar : Carried p k0.tags vid inner)
    (harp : k0.hdr fEthType = some typeArp → ∀ w ∈ c.vlans, w.vid = vid → w.vips = []) (hfor : ¬ ForRouter c k0 vid)
    (hes : Proc sw 0 k0 es) : Proc (c.base sw) 0 k0 es := by
  obtain ⟨hc0, hs0, hd0, hf0, hsd, hsf, hdf, hcd, hcf, hcs, hcs', -⟩ := ho.basic.distinct
  have hF := ho.basic.fib ho.ipv4
  have hV := ho.basic.vip ho.ipv4
  refine proc_base (Q := fun t k => (t = 0 ∧ k = k0) ∨ ((t = c.l2.tc ∨ t = c.l2.ts ∨ t = c.l2.td ∨ t = c.l2.tf) ∧ Stage p k0 vid inner k)) ?_ hes
    (Or.inl ⟨rfl, rfl⟩)
  rintro t k s b hQ hh
  have hns : c.routing s = false := by
    rcases hQ with ⟨rfl, rfl⟩ | ⟨ht, hst⟩
    · exact l2_tables ho (Or.inr (Or.inr hh.table))
    · rw [← Bool.not_eq_true]
      intro hs
      have hrr := hr s b hs hh.present
      have htab := hh.table
      cases hrr with
      | @selArp w hw hne =>
        have h1 := (hits_exact (f := fEthType) (by decide) (by decide)).1 (L2.hits_mem hh.hits (i := iType typeArp) (by simp))
        rw [hst.hdr _ (by decide)] at h1
        have h2 := L2.stage_vid hst (ho.conf.vid w hw) hh.hits (by simp)
        exact hne (harp h1 w hw h2)
      | @selIp w hw hne =>
        have h1 := (hits_exact (f := fEthType) (by decide) (by decide)).1 (L2.hits_mem hh.hits (i := iType typeIp) (by simp))
        have h3 := (hits_exact (f := fEthDst) (by decide) (by decide)).1 (L2.hits_mem hh.hits (i := iEthDst w.mac) (by simp))
        rw [hst.hdr _ (by decide)] at h1 h3
        have h2 := L2.stage_vid hst (ho.conf.vid w hw) hh.hits (by simp)
        exact hfor ⟨h1, w, hw, h2, hne, h3⟩
      | vipAsk | vipReply | vipArp | icmpUs | icmp | ipUs | ip =>
        have htab : c.l2.tvip = t := htab
        rcases ht with h | h | h | h <;> rw [h] at htab
        exacts [hV.cls htab, hV.src htab, hV.dst htab, hV.flood htab]
      | route | hole | vip =>
        have htab : c.l2.tfib = t := htab
        rcases ht with h | h | h | h <;> rw [h] at htab
        exacts [hF.cls htab, hF.src htab, hF.dst htab, hF.flood htab]
  have hu := hf s b (hit_base hh hns).present
  refine ⟨hns, ?_⟩
  intro n hn
  right
  refine ⟨?_, ?_⟩
  · rcases urule_goto ho hu hn with ⟨-, h⟩ | ⟨-, h⟩ | ⟨-, h⟩ | ⟨-, h⟩
    · exact Or.inl h
    · exact Or.inr (Or.inl h)
    · exact Or.inr (Or.inr (Or.inl h))
    · exact Or.inr (Or.inr (Or.inr h))
  · rcases hQ with ⟨rfl, rfl⟩ | ⟨ht, hst⟩
    · obtain ⟨-, vid', inner', h⟩ := (L2.first_step (sw := sw) ho.wf hp hk hin (L2.urule_flowOk ho.basic hu) hh.table hh.hits).2 n hn
      obtain ⟨rfl, rfl⟩ := L2.carried_det h.carried hcar
      exact h
    · refine ((L2.stage_step ho.wf (L2.groupsOk_u ho.basic sw) hst (L2.urule_flowOk ho.basic hu) ?_ hh.hits).2 n hn).2
      rw [hh.table]
      rcases ht with h | h | h | h <;> rw [h] <;> assumption

end Faucet.Routed
