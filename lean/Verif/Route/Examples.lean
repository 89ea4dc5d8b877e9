import Verif.Route.Bgp

/-!
# Routing: the hypotheses of the theorems on a concrete network, and defects
-/

namespace Faucet.Route
open Faucet.OF Faucet Faucet.FlowReorder

/-! ## A network: two VLANs and a router between them -/

/-- VLAN 100, 10.0.1.254/24. -/
def vA : Vlan := { vid := 100, mac := 0xa, vips := [⟨0x0a0001fe, 24⟩] }
/-- VLAN 200, 10.0.2.254/24. -/
def vB : Vlan := { vid := 200, mac := 0xb, vips := [⟨0x0a0002fe, 24⟩] }

def mgrX : Mgr :=
  { width := 32, ethType := 0x800, ipDst := 12, linkLocal := fun _ => false, fib := ⟨5, 1⟩, vip := ⟨6, 1⟩, toL2 := 7,
    routers := [⟨[vA, vB]⟩] }

def vsX : List Vlan := [vA, vB]
def envX : Env := { floods := fun _ => 1, jitter := fun _ => 0, hard := 60, shuffle := id }

/-- A switch whose FIB drops what no route is for. -/
def swX : Switch :=
  { flows := fun s => if s = ⟨5, 0, []⟩ then some { inst := [] } else none, groups := fun _ => none, meters := fun _ => none }

def stX : St := fun _ => {}

theorem vipMapA {ip : Nat} (h : (vA.vipMap 32 ip).isSome) : ip &&& mask 32 24 = 0x0a000100 := by
  unfold Vlan.vipMap at h
  simp only [vA, List.find?_cons, List.find?_nil] at h
  cases hc : (Vip.net 32 ⟨0x0a0001fe, 24⟩).contains 32 ip with
  | false => rw [hc] at h; cases h
  | true => exact beq_iff_eq.1 hc

theorem vipMapB {ip : Nat} (h : (vB.vipMap 32 ip).isSome) : ip &&& mask 32 24 = 0x0a000200 := by
  unfold Vlan.vipMap at h
  simp only [vB, List.find?_cons, List.find?_nil] at h
  cases hc : (Vip.net 32 ⟨0x0a0002fe, 24⟩).contains 32 ip with
  | false => rw [hc] at h; cases h
  | true => exact beq_iff_eq.1 hc

theorem conf_example : ConfOk mgrX vsX where
  distinct := by decide
  vid := by decide
  global := by decide
  routers := by decide
  apart := by
    intro u hu v hv rv ip _ _ h1 h2
    simp only [vsX, List.mem_cons, List.not_mem_nil, or_false] at hu hv
    rcases hu with rfl | rfl <;> rcases hv with rfl | rfl
    · rfl
    · have a := vipMapA h1; rw [vipMapB h2] at a; exact absurd a (by decide)
    · have a := vipMapB h1; rw [vipMapA h2] at a; exact absurd a (by decide)
    · rfl
  table := by decide
  tables := by decide

theorem vips_example : VipsOk mgrX vsX := ⟨by decide, by decide⟩

theorem blank_example : Blank mgrX swX := by
  intro s b h _
  by_cases hs : s = ⟨5, 0, []⟩
  · simp only [swX, hs, if_true] at h
    injection h with h
    subst h
    rw [hs]
    decide
  · simp only [swX, hs, if_false] at h
    cases h

theorem static_example : Static mgrX vsX (NotOurs mgrX vsX) stX where
  rib := fun _ _ => ⟨[], trivial, rfl⟩
  gws := fun _ _ _ _ h => (by cases h)
  uniq := fun _ _ _ _ _ _ _ _ h => absurd rfl h

/-- A host of VLAN 100 sends a packet, and is then announced as the gateway of 10.9.0.0/16. -/
def opsX : List Op := [.hostPkt 0 vA 1 0x77 0x0a000101, .announce vA 0x0a000101 ⟨0x0a090000, 16⟩]

/-- The state and the switch after operations. -/
def runOps (m : Mgr) (e : Env) (x : St × Switch) (ops : List Op) : St × Switch :=
  ops.foldl (fun x o => ((m.step e x.1 o).1, x.2.execAll (deletesFirst (flowMods (m.step e x.1 o).2)))) x

def endX : St × Switch := runOps mgrX envX (stX, boot mgrX vsX swX) opsX

theorem tame_host : Tame mgrX vsX (NotOurs mgrX vsX) stX (.hostPkt 0 vA 1 0x77 0x0a000101) := by
  refine ⟨by decide, fun _ => ⟨⟨by decide, by decide, by decide⟩, by decide⟩⟩

theorem reach_example : Reach mgrX vsX (NotOurs mgrX vsX) stX swX endX.1 endX.2 := by
  refine .op envX _ (.op envX _ .start (fun l => List.Perm.refl l) tame_host) (fun l => List.Perm.refl l) ?_
  refine ⟨by decide, ⟨⟨by decide, by decide, by decide⟩, by decide⟩, ?_, ?_⟩
  · intro u hu
    have : mgrX.gwVlan vA 0x0a000101 = some vA := by decide
    rw [this] at hu
    injection hu with hu
    subst hu
    refine ⟨Or.inl (by decide), ?_⟩
    intro v hv hne _
    simp only [vsX, List.mem_cons, List.not_mem_nil, or_false] at hv
    rcases hv with rfl | rfl
    · exact absurd rfl hne
    · decide
  · intro ip h
    have := congrArg Net.len h
    exact absurd this (show ¬ (16 = 32) by decide)

/-- A packet of VLAN 200 to 10.9.8.7. -/
def pktX : Pkt := { hdr := fun f => if f = fEthType then some 0x800 else if f = 12 then some 0x0a090807 else none, tags := [(200, 0)] }

theorem pkt_example : IpPkt mgrX pktX 200 0x0a090807 := ⟨⟨0, [], rfl⟩, by decide, by decide, by decide⟩

/-- `gateway_routes_partial` on this network: the packet is routed from VLAN 200 to the gateway in VLAN 100. -/
example (hlong : ∀ n', Installed mgrX endX.2 200 n' → n'.contains 32 0x0a090807 = true → n'.len ≤ 16) :
    (∃ s b, Hit endX.2 5 pktX s b) ∧ ∀ s b, Hit endX.2 5 pktX s b → instGoto b.inst = some 7 ∧
      (runInst endX.2 b.inst pktX).2.hdr fEthDst = some 0x77 := by
  have h := gateway_routes_partial (v := vA) (dst := ⟨0x0a090000, 16⟩) (gw := 0x0a000101) (mac := 0x77) (rv := 200)
    conf_example vips_example blank_example static_example (fun n h => h.1) reach_example (by decide) (by decide)
    ⟨_, rfl, rfl⟩ (serves_iff.2 (by decide)) pkt_example (by decide) hlong
  exact ⟨h.1, fun s b hit => ⟨(h.2 s b hit).1, (h.2 s b hit).2.2.1⟩⟩

/-- What is installed: a slot of the FIB in VLAN 200 is one of these. -/
theorem installed_example (n : Net) (h : Installed mgrX endX.2 200 n) :
    n ∈ [⟨0x0a000101, 32⟩, ⟨0x0a090000, 16⟩, ⟨0x0a0002fe, 32⟩, ⟨0x0a000100, 24⟩, ⟨0x0a000200, 24⟩] := by
  obtain ⟨b, hb⟩ := h
  have key : ∀ ms : List OfMsg, ∀ s, (∀ x ∈ ms, ∃ s' b', x = put s' b') → ∀ y : Option Body, slotAfter ms s y ≠ none →
      y ≠ none ∨ Puts ms s := by
    intro ms s
    induction ms with
    | nil => intro _ y hy; exact Or.inl hy
    | cons x ms ih =>
      intro hp y hy
      obtain ⟨s', b', rfl⟩ := hp x (by simp)
      rw [slotAfter_cons, onFlow_put] at hy
      by_cases he : s' = s
      · exact Or.inr ⟨b', by rw [he]; simp⟩
      · rw [if_neg he] at hy
        rcases ih (fun x hx => hp x (List.mem_cons_of_mem _ hx)) y hy with h | ⟨b, hb⟩
        · exact Or.inl h
        · exact Or.inr ⟨b, List.mem_cons_of_mem _ hb⟩
  let ms : List OfMsg := vsX.flatMap mgrX.addVlan ++
    [put (mgrX.slot 100 ⟨0x0a000101, 32⟩) (mgrX.routeBody vA 0x77), put (mgrX.slot 100 ⟨0x0a000101, 32⟩) (mgrX.routeBody vA 0x77),
     put (mgrX.slot 200 ⟨0x0a000101, 32⟩) (mgrX.routeBody vA 0x77), put (mgrX.slot 100 ⟨0x0a090000, 16⟩) (mgrX.routeBody vA 0x77),
     put (mgrX.slot 100 ⟨0x0a090000, 16⟩) (mgrX.routeBody vA 0x77), put (mgrX.slot 200 ⟨0x0a090000, 16⟩) (mgrX.routeBody vA 0x77)]
  have hend : endX.2 = swX.execAll ms := by
    have h1 : endX.2 = ((swX.execAll (deletesFirst (vsX.flatMap mgrX.addVlan))).execAll
        (deletesFirst (flowMods (mgrX.step envX stX (.hostPkt 0 vA 1 0x77 0x0a000101)).2))).execAll
        (deletesFirst (flowMods (mgrX.step envX (mgrX.step envX stX (.hostPkt 0 vA 1 0x77 0x0a000101)).1
          (.announce vA 0x0a000101 ⟨0x0a090000, 16⟩)).2)) := rfl
    have h2 : deletesFirst (vsX.flatMap mgrX.addVlan) ++
        (deletesFirst (flowMods (mgrX.step envX stX (.hostPkt 0 vA 1 0x77 0x0a000101)).2)) ++
        (deletesFirst (flowMods (mgrX.step envX (mgrX.step envX stX (.hostPkt 0 vA 1 0x77 0x0a000101)).1
          (.announce vA 0x0a000101 ⟨0x0a090000, 16⟩)).2)) = ms := by decide +kernel
    rw [h1, ← h2]
    unfold Switch.execAll
    rw [List.foldl_append, List.foldl_append]
  rw [hend, execAll_flows] at hb
  have hputs : ∀ x ∈ ms, ∃ s' b', x = put s' b' := by
    intro x hx
    rcases List.mem_append.1 hx with hx | hx
    · obtain ⟨_, _, _, _, rv, h | h⟩ := addVlan_puts mgrX vsX x hx
      · exact ⟨_, _, h⟩
      · exact ⟨_, _, h⟩
    · simp only [List.mem_cons, List.not_mem_nil, or_false] at hx
      rcases hx with rfl | rfl | rfl | rfl | rfl | rfl <;> exact ⟨_, _, rfl⟩
  rcases key ms (mgrX.slot 200 n) hputs _ (by rw [hb]; simp) with h | ⟨b', hb'⟩
  · exfalso
    apply h
    have : mgrX.slot 200 n ≠ ⟨5, 0, []⟩ := by
      intro he
      have := congrArg Slot.priority he
      unfold Mgr.slot Mgr.routePriority lpmPriority at this
      simp only at this
      omega
    simp only [swX, this, if_false]
  · have hm : ∀ x ∈ ms, ∀ n b', x = put (mgrX.slot 200 n) b' →
        n ∈ [⟨0x0a000101, 32⟩, ⟨0x0a090000, 16⟩, ⟨0x0a0002fe, 32⟩, ⟨0x0a000100, 24⟩, ⟨0x0a000200, 24⟩] := by
      have he : ms = [(100, ⟨0x0a0001fe, 32⟩, mgrX.vipBody), (100, ⟨0x0a000100, 24⟩, mgrX.vipBody), (100, ⟨0x0a000100, 24⟩, mgrX.vipBody),
          (200, ⟨0x0a000100, 24⟩, mgrX.vipBody), (200, ⟨0x0a0002fe, 32⟩, mgrX.vipBody), (200, ⟨0x0a000200, 24⟩, mgrX.vipBody),
          (100, ⟨0x0a000200, 24⟩, mgrX.vipBody), (200, ⟨0x0a000200, 24⟩, mgrX.vipBody),
          (100, ⟨0x0a000101, 32⟩, mgrX.routeBody vA 0x77), (100, ⟨0x0a000101, 32⟩, mgrX.routeBody vA 0x77),
          (200, ⟨0x0a000101, 32⟩, mgrX.routeBody vA 0x77), (100, ⟨0x0a090000, 16⟩, mgrX.routeBody vA 0x77),
          (100, ⟨0x0a090000, 16⟩, mgrX.routeBody vA 0x77), (200, (⟨0x0a090000, 16⟩ : Net), mgrX.routeBody vA 0x77)].map
          (fun x : Nat × Net × Body => put (mgrX.slot x.1 x.2.1) x.2.2) := by decide +kernel
      rw [he]
      intro x hx n b' hxn
      obtain ⟨y, hy, rfl⟩ := List.mem_map.1 hx
      obtain ⟨h1, h2⟩ := slot_net (put_inj hxn).1
      simp only [List.mem_cons, List.not_mem_nil, or_false] at hy
      rcases hy with rfl | rfl | rfl | rfl | rfl | rfl | rfl | rfl | rfl | rfl | rfl | rfl | rfl | rfl <;>
        (rw [← h1]; revert h2; decide)
    exact hm _ hb' n b' rfl

/-- So the hypothesis on longer prefixes holds. -/
example : ∀ n', Installed mgrX endX.2 200 n' → n'.contains 32 0x0a090807 = true → n'.len ≤ 16 := by
  intro n' h
  have := installed_example n' h
  simp only [List.mem_cons, List.not_mem_nil, or_false] at this
  rcases this with rfl | rfl | rfl | rfl | rfl <;> decide

/-- `router_address_partial` on this network, in the same state. -/
example (p : Pkt) (hp : IpPkt mgrX p 100 0x0a0001fe) : ∀ s b, Hit endX.2 5 p s b → instGoto b.inst = some 6 := fun s b hit =>
  ((router_address_partial (v := vA) (x := ⟨0x0a0001fe, 24⟩) conf_example vips_example blank_example static_example
    reach_example (by decide) (by decide) (by decide) hp).2 s b hit).1

/-- `longest_prefix` in the same state: two prefixes contain 10.0.1.1. -/
example : History mgrX endX.1 endX.2 := by
  have h0 : History mgrX stX swX := .start _ _ blank_example (fun _ => ⟨[], by simp, rfl⟩)
  have h1 := (h0.vlan vA (by decide)).vlan vB (by decide)
  have h2 := (h1.op envX (.hostPkt 0 vA 1 0x77 0x0a000101) (by show _ < _; decide)).op envX (.announce vA 0x0a000101 ⟨0x0a090000, 16⟩)
    ⟨by decide, by decide, by decide⟩
  exact h2

example : Installed mgrX endX.2 200 ⟨0x0a000101, 32⟩ ∧ Installed mgrX endX.2 200 ⟨0x0a000100, 24⟩ :=
  ⟨⟨mgrX.routeBody vA 0x77, by decide +kernel⟩, ⟨mgrX.vipBody, by decide +kernel⟩⟩

/-- `resolve_bounded`, `resolve_fewest_first`: seven hosts, five of which are asked for. -/
example :
    let s : VState := { hostGws := [1, 2, 3, 4, 5, 6, 7].map (0x0a000100 + ·),
                        cache := [1, 2, 3, 4, 5, 6, 7].map (fun i => (0x0a000100 + i, { NextHop.new none none 0 with retries := i % 2 })) }
    (s.gwsOf true).Nodup ∧
    (mgrX.resolve envX (stX.upd 100 s) true true 100 vA).2 = [2, 4, 6, 1, 3].map (fun i => RMsg.ask 100 (0x0a000100 + i)) := by
  decide +kernel

/-- `bgp_follows_partial`: announcements, a withdrawal, a packet and a new configuration with a static route. -/
example : ∀ ev ∈ ([.change ⟨⟨0x0a090000, 16⟩, none, true⟩, .reload true (fun _ => [.add ⟨0x0c000000, 8⟩ 0x0a000103]), .op envX (.hostPkt 0 vA 1 0x77 0x0a000101),
    .change ⟨⟨0x0a090000, 16⟩, some 0x0a000101, false⟩, .change ⟨⟨0x0b000000, 8⟩, some 0x0a0001fe, false⟩] : List BgpEv),
    BgpOk mgrX vA ev := by
  intro ev hev
  simp only [List.mem_cons, List.not_mem_nil, or_false] at hev
  rcases hev with rfl | rfl | rfl | rfl | rfl
  · exact ⟨fun h => (by cases h), fun nh h => (by cases h)⟩
  · rfl
  · trivial
  · refine ⟨fun _ => (by simp), fun nh h => Or.inr ?_⟩
    injection h with h
    subst h
    decide
  · refine ⟨fun _ => (by simp), fun nh h => Or.inr ?_⟩
    injection h with h
    subst h
    decide

/-- After a new configuration the VLAN has its static route and the routes of the peer. -/
example : (mgrX.bgpRun vA stX [.reload true (fun _ => [.add ⟨0x0c000000, 8⟩ 0x0a000103]),
    .change ⟨⟨0x0a090000, 16⟩, some 0x0a000101, false⟩]).map (fun x => (x.2, (x.1 100).routes)) =
    some ([(⟨0x0a090000, 16⟩, 0x0a000101)], [(⟨0x0c000000, 8⟩, 0x0a000103), (⟨0x0a090000, 16⟩, 0x0a000101)]) := by
  decide +kernel

/-! ## Defects -/

/-- C58 is false if a host uses the router's address as its source: the FIB then sends the router's traffic to the host. -/
theorem vip_spoofed_defect :
    ((runOps mgrX envX (stX, boot mgrX vsX swX) [.hostPkt 0 vA 1 0x77 0x0a0001fe]).2.flows (mgrX.slot 100 ⟨0x0a0001fe, 32⟩)).map (·.inst) =
      some [.goto 7, .apply [.decTtl, .setField fVlanVid (vidPresent 100), .setField fEthSrc 0xa, .setField fEthDst 0x77]] := by
  decide +kernel

/-- C58 is false if a BGP peer announces the router's address: the check for it (`is_faucet_vip(ip_dst)`) never succeeds. -/
theorem vip_announced_defect :
    ((runOps mgrX envX (stX, boot mgrX vsX swX) [.hostPkt 0 vA 1 0x77 0x0a000101, .announce vA 0x0a000101 ⟨0x0a0001fe, 32⟩]).2.flows
      (mgrX.slot 100 ⟨0x0a0001fe, 32⟩)).map (·.inst) =
      some [.goto 7, .apply [.decTtl, .setField fVlanVid (vidPresent 100), .setField fEthSrc 0xa, .setField fEthDst 0x77]] := by
  decide +kernel

/-- VLAN 300, 10.0.3.254/24 and 10.0.3.253/24. -/
def vC : Vlan := { vid := 300, mac := 0xc, vips := [⟨0x0a0003fe, 24⟩, ⟨0x0a0003fd, 24⟩] }

/-- C58 is false for the second of two router addresses in a network: a packet to it that reaches the controller makes it
look for a host with that address, and the router's flow is replaced by a black hole. -/
theorem second_vip_blackholed_defect :
    let m : Mgr := { mgrX with routers := [] }
    ((boot m [vC] swX).flows (m.slot 300 ⟨0x0a0003fd, 32⟩)).map (·.inst) = some [.goto 6] ∧
    ((runOps m envX (stX, boot m [vC] swX) [.toHost 0 vC 1 0x77 0x0a000301 0x0a0003fd]).2.flows
      (m.slot 300 ⟨0x0a0003fd, 32⟩)).map (·.inst) = some [] := by
  decide +kernel

/-- C20 is false when the port of a gateway goes down: the host route of the gateway goes, the routes behind it stay. -/
theorem gateway_down_defect :
    let r := runOps mgrX envX endX [.portDown 1 [vA]]
    (r.1 100).eth 0x0a000101 = none ∧ r.2.flows (mgrX.slot 200 ⟨0x0a000101, 32⟩) = none ∧
    (r.2.flows (mgrX.slot 200 ⟨0x0a090000, 16⟩)).map (fun b => instGoto b.inst) = some (some 7) := by
  decide +kernel

/-- C20 is false after a reload, even of the same configuration: FAUCET forgets which hosts it has resolved, and the switch
keeps their routes (`faucet/valve.py` 1622-1625: no message is sent). When the host's port goes down, or the host does not
answer, its route stays, since FAUCET no longer knows of it. -/
theorem reload_keeps_route_defect :
    let after := runOps mgrX envX endX [.portDown 1 [vA]]
    let reloaded := runOps mgrX envX (mgrX.bgpReload vA [] true (fun _ => []), endX.2)
      [.portDown 1 [vA], .resolve true true 1000000 vA, .resolve false true 1000000 vA]
    after.2.flows (mgrX.slot 200 ⟨0x0a000101, 32⟩) = none ∧
    reloaded.2.flows (mgrX.slot 200 ⟨0x0a000101, 32⟩) = some (mgrX.routeBody vA 0x77) := by
  decide +kernel

/-- C20, C46: a prefix that is announced via another gateway, whose MAC is not known yet, is still sent to the old one. -/
theorem gateway_changed_defect :
    let r := runOps mgrX envX endX [.announce vA 0x0a000102 ⟨0x0a090000, 16⟩]
    (r.1 100).routes.get? ⟨0x0a090000, 16⟩ = some 0x0a000102 ∧
    r.2.flows (mgrX.slot 200 ⟨0x0a090000, 16⟩) = some (mgrX.routeBody vA 0x77) := by
  decide +kernel

/-- And when the old gateway is seen with another MAC, the prefix goes to it again, although its route is via the new one. -/
theorem gateway_stolen_defect :
    let r := runOps mgrX envX endX [.announce vA 0x0a000102 ⟨0x0a090000, 16⟩, .hostPkt 1 vA 2 0x88 0x0a000102, .hostPkt 2 vA 1 0x99 0x0a000101]
    (r.1 100).routes.get? ⟨0x0a090000, 16⟩ = some 0x0a000102 ∧ (r.1 100).eth 0x0a000102 = some 0x88 ∧
    r.2.flows (mgrX.slot 200 ⟨0x0a090000, 16⟩) = some (mgrX.routeBody vA 0x99) := by
  decide +kernel

/-- C46 is false when the next hop is in another VLAN of the router: the announcement puts the route there, the withdrawal
looks for it in the speaker's VLAN. The prefix leaves the RIB and stays routed. -/
theorem bgp_other_vlan_defect :
    (mgrX.bgpRun vA stX [.change ⟨⟨0x0a090000, 16⟩, none, true⟩, .change ⟨⟨0x0a090000, 16⟩, some 0x0a000201, false⟩]).map
      (fun x => (x.2, (x.1 200).routes)) = some ([], [(⟨0x0a090000, 16⟩, 0x0a000201)]) := by
  decide +kernel

/-- C46 and the configuration: a peer that withdraws a prefix removes the static route for it, also if it never announced the
prefix. The route is back when the configuration is read again. -/
theorem bgp_removes_static_defect :
    let static : Nat → List RibOp := fun _ => [.add ⟨0x0a090000, 16⟩ 0x0a000103]
    (mgrX.bgpRun vA (mgrX.configured static) []).map (fun x => (x.1 100).routes.get? ⟨0x0a090000, 16⟩) =
      some (some 0x0a000103) ∧
    (mgrX.bgpRun vA (mgrX.configured static) [.change ⟨⟨0x0a090000, 16⟩, none, true⟩]).map
      (fun x => (x.1 100).routes.get? ⟨0x0a090000, 16⟩) = some none ∧
    (mgrX.bgpRun vA (mgrX.configured static) [.reload true static, .change ⟨⟨0x0a090000, 16⟩, none, true⟩]).map
      (fun x => (x.1 100).routes.get? ⟨0x0a090000, 16⟩) = some (some 0x0a000103) := by
  decide +kernel

/-- A BGP speaker that is taken out of the configuration goes on changing routes: `reset` keeps it, and its handler looks
only for the VLAN. If it is configured again later, what its peer said in the meantime is routed at once. -/
theorem bgp_removed_speaker_defect :
    let ann : BgpEv := .change ⟨⟨0x0a090000, 16⟩, some 0x0a000101, false⟩
    (mgrX.bgpRun vA stX [ann, .reload false (fun _ => [])]).map (fun x => (x.1 100).routes) =
      some [(⟨0x0a090000, 16⟩, 0x0a000101)] ∧
    (mgrX.bgpRun vA stX [.reload true (fun _ => []), ann, .reload false (fun _ => [])]).map (fun x => (x.1 100).routes) =
      some [(⟨0x0a090000, 16⟩, 0x0a000101)] := by
  decide +kernel

/-- An announcement without next hop raises an exception. -/
theorem bgp_no_nexthop_defect : (mgrX.bgpRun vA stX [.change ⟨⟨0x0a090000, 16⟩, none, false⟩]).isNone = true := by
  decide +kernel

/-- A link-local next hop (both VLANs have fe80::/10 addresses, here 0xfe000001/8 and 0xfe000002/8) of a router of two VLANs
is taken to be in one of them, whichever VLAN it was announced in. -/
theorem link_local_wrong_vlan_defect :
    let a : Vlan := { vid := 100, mac := 0xa, vips := [⟨0xfe000001, 8⟩] }
    let b : Vlan := { vid := 200, mac := 0xb, vips := [⟨0xfe000002, 8⟩] }
    let m : Mgr := { mgrX with routers := [⟨[a, b]⟩], linkLocal := fun ip => ip / 2 ^ 24 == 0xfe }
    (m.gwVlan a 0xfe000009).map (·.vid) = some 200 := by
  decide +kernel

end Faucet.Route
