import Verif.Valid.Accept
import Verif.Valid.WF
import Verif.Valid.Routers

/-!
# Configurations: examples, and findings (C68)
-/

namespace Faucet.Valid.Ex
open Faucet Faucet.Valid

/-- The configuration is accepted, with a result like this. -/
theorem accepted {c : Conf} {P : List Dp → Prop} [DecidablePred P] (h : (parse c).any (fun d => decide (P d)) = true) :
    ∃ dps, parse c = some dps ∧ P dps := by
  cases hp : parse c with
  | none => rw [hp] at h; cases h
  | some dps =>
    rw [hp] at h
    exact ⟨dps, rfl, of_decide_eq_true h⟩

theorem keyed {c : Conf} (h : (c.dps.map (·.name)).Nodup) (h' : (c.vlans.map (·.1)).Nodup) : c.Keyed := ⟨h, h'⟩

/-! ## Examples -/

/-- 10.0.n.254/24 -/
def vip (n : Nat) : Vip := ⟨false, 0x0A0000FE + 256 * n, 24⟩

/-- Two switches in a stack, VLANs 100 ("office", `other 1`) and 200 with a router, VLAN 300 without a section, and a mirror. -/
def conf : Conf where
  vlans := [(.name (.other 1), { vid := some 100, vips := [vip 1] }), (.num 200, { name := some (.other 2), vips := [vip 2] })]
  routers := [(1, [.name (.other 1), .name (.other 2)])]
  acls := [(7, [])]
  dps := [
    { name := 1, dpId := 1, priority := some 1, interfaces := [
      (.num 1, { native := some (.name (.other 1)) }), (.num 2, { native := some (.num 200), tagged := [.name (.other 1), .num 300], acls := [7] }),
      (.name (.other 5), { number := some 3, mirror := [.num 1] }), (.num 4, { stack := some (2, .num 4) })] },
    { name := 2, dpId := 2, interfaces := [
      (.num 1, { native := some (.num 300), hairpin := true }), (.num 4, { stack := some (1, .num 4) })] }]

theorem conf_keyed : conf.Keyed := keyed (by decide) (by decide)

/-- It is accepted, and both switches have the three VLANs. -/
theorem conf_parsed : ∃ dps, parse conf = some dps ∧
    dps.map (fun d => d.vlans.map (fun v => (v.vid, v.untagged, v.tagged))) =
      [[(100, [1], [2]), (200, [2], []), (300, [], [2])], [(100, [], []), (200, [], []), (300, [1], [])]] ∧
    dps.map (fun d => d.ports.map (fun p => (p.number, p.mirror, p.outputOnly))) =
      [[(1, [3], false), (2, [], false), (3, [1], true), (4, [], false)], [(1, [], false), (4, [], false)]] :=
  accepted (by decide +kernel)

/-- The hypotheses of the theorems about accepted configurations: the first switch has ports, VLANs, a router, a mirror and a stack port. -/
example : conf.Keyed ∧ (conf.acls.map (·.1)).Nodup ∧ ∃ dps, parse conf = some dps ∧ ∃ d ∈ dps,
    (∃ v ∈ d.vlans, v.untagged ≠ [] ∧ v.tagged ≠ []) ∧ (∃ p ∈ d.ports, p.mirrorOf = [] ∧ p.mirror ≠ []) ∧ (∃ q ∈ d.ports, q.mirrorOf ≠ []) ∧
    (∃ p ∈ d.ports, p.stack ≠ none) ∧ (∃ p ∈ d.ports, p.native ≠ none ∧ p.tagged ≠ []) :=
  ⟨conf_keyed, by decide, accepted (by decide +kernel)⟩

/-- The router has two different VIPs. -/
example : ∃ dps, parse conf = some dps ∧ ∃ d ∈ dps, ∃ r ∈ d.routers, ∃ u ∈ r.2, ∃ v ∈ r.2, u.vips = [vip 1] ∧ v.vips = [vip 2] :=
  accepted (by decide +kernel)

/-- The sections of an interface list with different numbers all count. -/
theorem effective_of_nodup {l : List (Key × PortConf)} (h : (l.map secNum).Nodup) {e : Key × PortConf} (he : e ∈ l) : Effective l e := by
  obtain ⟨pre, post, rfl⟩ := List.append_of_mem he
  refine ⟨pre, post, rfl, fun x hx heq => ?_⟩
  rw [List.map_append, List.map_cons, List.nodup_append] at h
  exact (List.nodup_cons.1 h.2.1).1 (List.mem_map.2 ⟨x, hx, heq⟩)

/-- `special_no_vlans_partial`: the mirror. -/
example : ∃ dps, parse conf = some dps ∧ ∃ d ∈ dps, ∃ p ∈ d.ports, ∃ e, Effective d.conf.interfaces e ∧ secNum e = .num p.number ∧ Special e.2 ∧
    ∀ k, e.2.native = some k → ¬Falsy k := by
  obtain ⟨dps, h, h1⟩ := accepted (c := conf) (P := fun dps => ∃ d ∈ dps, (d.conf.interfaces.map secNum).Nodup ∧ ∃ p ∈ d.ports,
    ∃ e ∈ d.conf.interfaces, secNum e = .num p.number ∧ e.2.mirror ≠ [] ∧ e.2.native = none) (by decide +kernel)
  obtain ⟨d, hd, hn, p, hp, e, he, hs, hm, hnat⟩ := h1
  exact ⟨dps, h, d, hd, p, hp, e, effective_of_nodup hn he, hs, .inl hm, fun k hk => by rw [hnat] at hk; cases hk⟩

/-- A switch on its own: two VLANs and a mirror. -/
def plain : Conf where
  vlans := [(.num 100, { })]
  dps := [
    { name := 1, dpId := 1, interfaces := [
      (.num 1, { native := some (.num 100) }), (.num 2, { native := some (.num 100), tagged := [.num 200], hairpinUnicast := true }),
      (.num 3, { mirror := [.num 2] })] }]

/-- The conditions of `accepted_iff`. -/
example : plain.Keyed ∧ plain.NoExtras ∧ (∃ dps, parse plain = some dps) ∧ Meets plain := by
  have hk : plain.Keyed := keyed (by decide) (by decide)
  have hx : plain.NoExtras := ⟨by decide, by decide, by decide, by decide, rfl⟩
  have hp : ∃ dps, parse plain = some dps := by
    obtain ⟨dps, h, -⟩ := accepted (c := plain) (P := fun _ => True) (by decide +kernel)
    exact ⟨dps, h⟩
  exact ⟨hk, hx, hp, (accepted_iff hk hx).1 hp⟩

/-- A VLAN twice on an interface: not accepted, so the conditions are not met. -/
example : let c : Conf := { dps := [{ name := 1, dpId := 1, interfaces := [(.num 1, { native := some (.num 100), tagged := [.num 100] })] }] }
    c.Keyed ∧ c.NoExtras ∧ ¬Meets c := by
  intro c
  have hk : c.Keyed := keyed (by decide) (by decide)
  have hx : c.NoExtras := ⟨by decide, by decide, by decide, by decide, rfl⟩
  refine ⟨hk, hx, fun h => ?_⟩
  obtain ⟨dps, h⟩ := (accepted_iff hk hx).2 h
  have : parse c = none := by decide +kernel
  rw [this] at h
  cases h

/-- The conditions of `accepted_wf_partial`, and of `accepted_isolation_partial` in the state of the beginning with a packet of host 5. -/
theorem plain_wf : ∃ dps, parse plain = some dps ∧ ∃ d ∈ dps, (∀ e, Effective d.conf.interfaces e → e.2.mirror ≠ [] → ∀ k, e.2.native = some k → ¬Falsy k) ∧
    (∀ e, Effective d.conf.interfaces e → secNum e ≠ .num 0xfffffff8) ∧ d.toL2.WF := by
  obtain ⟨dps, h, h1⟩ := accepted (c := plain) (P := fun dps => ∃ d ∈ dps, (∀ e ∈ d.conf.interfaces, e.2.mirror ≠ [] → e.2.native = none) ∧
    ∀ e ∈ d.conf.interfaces, secNum e ≠ .num 0xfffffff8) (by decide +kernel)
  obtain ⟨d, hd, hm, hi⟩ := h1
  have hm' : ∀ e, Effective d.conf.interfaces e → e.2.mirror ≠ [] → ∀ k, e.2.native = some k → ¬Falsy k := by
    intro e he hne k hk
    rw [hm e he.mem hne] at hk
    cases hk
  have hi' : ∀ e, Effective d.conf.interfaces e → secNum e ≠ .num 0xfffffff8 := fun e he => hi e he.mem
  exact ⟨dps, h, d, hd, hm', hi', accepted_wf_partial (keyed (by decide) (by decide)) h hd hm' hi'⟩

/-- Two switches joined by a link, with named ports: the conditions of `accepted_cabling_partial`. -/
example : ∃ dps, parse conf = some dps ∧ (∀ d ∈ dps, (d.ports.map (·.name)).Nodup) ∧ (∀ a n m, ¬LeadsTo dps a n a m) ∧ LeadsTo dps 1 4 2 4 := by
  obtain ⟨dps, h, h1, h2, h3⟩ := accepted (c := conf) (P := fun dps => (∀ d ∈ dps, (d.ports.map (·.name)).Nodup) ∧
    (∀ d ∈ dps, ∀ p ∈ d.ports, p.stack.map (·.1) ≠ some d.conf.name) ∧
    ∃ d ∈ dps, d.conf.name = 1 ∧ ∃ p ∈ d.ports, p.number = 4 ∧ p.stack = some (2, .num 4) ∧ ∃ d' ∈ dps, d'.conf.name = 2 ∧ ∃ q ∈ d'.ports, q.number = 4)
    (by decide +kernel)
  refine ⟨dps, h, h1, ?_, ?_⟩
  · rintro a n m ⟨d, hd, rfl, p, hp, -, k, hs, -⟩
    exact h2 d hd p hp (by rw [hs]; rfl)
  · obtain ⟨d, hd, e1, p, hp, e2, e3, d', hd', e4, q, hq, e5⟩ := h3
    exact ⟨d, hd, e1, p, hp, e2, _, e3, d', hd', e4, .inl ⟨rfl, q, hq, e5⟩⟩

/-- The conditions of `router_vips_apart_partial` and `accepted_routing_partial` about VIPs and routers. -/
example : ∃ dps, parse conf = some dps ∧ ∃ d ∈ dps, d.routers ≠ [] ∧ (∀ v ∈ d.vlans, ∀ x ∈ v.vips, x.Proper) ∧
    (∀ r ∈ d.routers, ∀ s ∈ d.routers, ∀ v, v ∈ r.2 → v ∈ s.2 → r = s) ∧
    (∀ r ∈ d.routers, ∀ u ∈ r.2, ∀ x ∈ u.vips, ¬x.Local ∧ ∀ v ∈ r.2, x ∈ v.vips → v = u) := by
  obtain ⟨dps, h, d, hd, h1, h2, h3, h4⟩ := accepted (c := conf) (P := fun dps => ∃ d ∈ dps, d.routers ≠ [] ∧
    (∀ v ∈ d.vlans, ∀ x ∈ v.vips, x.len ≤ x.width ∧ x.ip < 2 ^ x.width) ∧ (∀ r ∈ d.routers, ∀ s ∈ d.routers, r = s) ∧
    (∀ r ∈ d.routers, ∀ u ∈ r.2, ∀ x ∈ u.vips, (¬((x.v6 = false ∧ x.ip / 2 ^ 16 = 0xA9FE) ∨ (x.v6 = true ∧ x.ip / 2 ^ 118 = 0x3FA))) ∧
      ∀ v ∈ r.2, x ∈ v.vips → v = u)) (by decide +kernel)
  exact ⟨dps, h, d, hd, h1, h2, fun r hr s hs _ _ _ => h3 r hr s hs, h4⟩

/-! ## Findings -/

/-- A mirror port may be in a VLAN: whether it has VLANs is decided by whether its native VLAN is true, and 0 is not (`faucet/port.py`
339). VLAN section `0` with VID 100 is accepted, and so is `native_vlan: 0` on a mirror. -/
theorem mirror_in_vlan_defect : ∃ dps, parse { vlans := [(.num 0, { vid := some 100 })], dps := [{ name := 1, dpId := 1, interfaces := [(.num 1, { native := some (.num 0) }), (.num 2, { native := some (.num 0), mirror := [.num 1] })] }] } =
      some dps ∧ ∃ d ∈ dps, ∃ p ∈ d.ports, p.number = 2 ∧ p.mirrorOf ≠ [] ∧ p.native = some 100 ∧ ∃ v ∈ d.vlans, v.vid = 100 ∧ 2 ∈ v.untagged :=
  accepted (by decide +kernel)

/-- An interface may be numbered as the reserved port `OFPP_IN_PORT`, which stands for "where the packet came from": `ignore_port` makes an
exception for it (`faucet/valve_of.py` 265-267). Output to that interface of a VLAN sends packets back. -/
theorem in_port_interface_defect : ∃ dps, parse { dps := [{ name := 1, dpId := 1, interfaces := [(.num 1, { native := some (.num 100) }),
      (.num 0xfffffff8, { native := some (.num 100) })] }] } = some dps ∧ ∃ d ∈ dps, ∃ v ∈ d.vlans, v.untagged = [1, 0xfffffff8] :=
  accepted (by decide +kernel)

/-- Two interface sections with one number are accepted, and the first is dropped without a word (`faucet/config_parser.py` 115-128). Here
"a" (`other 1`) and "b" both have number 1, in VLANs 100 and 200: port 1 is only in VLAN 200. -/
theorem interface_dropped_defect : ∃ dps, parse { dps := [{ name := 1, dpId := 1, interfaces := [
      (.name (.other 1), { number := some 1, native := some (.num 100) }), (.name (.other 2), { number := some 1, native := some (.num 200) })] }] } = some dps ∧
      ∃ d ∈ dps, d.ports.map (fun p => (p.number, p.name, p.native)) = [(1, .other 2, some 200)] :=
  accepted (by decide +kernel)

/-- `native_vlan: 100` need not be VLAN 100: a section with *key* 100 comes first (`faucet/config_parser.py` 59-76), even if its VID is 200
and there is a VLAN with VID 100. -/
theorem vlan_key_before_vid_defect : ∃ dps, parse { vlans := [(.num 100, { vid := some 200 }), (.name (.other 1), { vid := some 100 })], dps := [{ name := 1, dpId := 1, interfaces := [(.num 1, { native := some (.num 100) })] }] } = some dps ∧
      ∃ d ∈ dps, (∃ v ∈ d.vlans, v.vid = 100) ∧ ∃ p ∈ d.ports, p.native = some 200 :=
  accepted (by decide +kernel)

/-- A mirror that lists a port by its number and by its name gets two copies of each of its packets: the port is mirrored to it twice
(`faucet/dp.py` 1019-1031). -/
theorem mirrored_twice_defect : ∃ dps, parse { dps := [{ name := 1, dpId := 1, interfaces := [
      (.name (.other 1), { number := some 1, native := some (.num 100) }), (.num 2, { mirror := [.num 1, .name (.other 1)] })] }] } = some dps ∧
      ∃ d ∈ dps, ∃ p ∈ d.ports, p.number = 1 ∧ p.mirror = [2, 2] :=
  accepted (by decide +kernel)

/-- The same VIP on two VLANs of a router is not noticed: the VIPs are collected in a set before they are compared
(`faucet/dp.py` 1296-1307). A VIP in the network of another one is refused. -/
theorem same_vip_twice_defect :
    (∃ dps, parse { vlans := [(.num 100, { vips := [vip 1] }), (.num 200, { vips := [vip 1] })], routers := [(1, [.num 100, .num 200])], dps := [{ name := 1, dpId := 1, interfaces := [(.num 1, { native := some (.num 100) })] }] } = some dps ∧
      ∃ d ∈ dps, ∃ r ∈ d.routers, ∃ u ∈ r.2, ∃ v ∈ r.2, u.vid ≠ v.vid ∧ u.vips = v.vips ∧ u.vips ≠ []) ∧
    parse { vlans := [(.num 100, { vips := [vip 1] }), (.num 200, { vips := [⟨false, 0x0A0001FD, 24⟩] })], routers := [(1, [.num 100, .num 200])], dps := [{ name := 1, dpId := 1, interfaces := [(.num 1, { native := some (.num 100) })] }] } = none :=
  ⟨accepted (by decide +kernel), by decide +kernel⟩

/-- VIPs that overlap are accepted if a VLAN joins two routers: only the VIPs of one router are compared, though packets are routed between
any two VLANs that have a router in common. VLAN 300 is in both routers here, so that VLAN 100 of the one and VLAN 200 of the other, which
have one network, are both next to it. -/
theorem overlap_across_routers_defect :
    ∃ dps, parse { vlans := [(.num 100, { vips := [vip 1] }), (.num 200, { vips := [⟨false, 0x0A0001FD, 24⟩] }), (.num 300, { vips := [vip 3] })], routers := [(1, [.num 100, .num 300]), (2, [.num 200, .num 300])], dps := [{ name := 1, dpId := 1, interfaces := [(.num 1, { native := some (.num 100) })] }] } = some dps ∧
      ∃ d ∈ dps, d.routers.map (fun r => (r.1, r.2.map (·.vid))) = [(1, [100, 300]), (2, [200, 300])] ∧
        ∃ u ∈ d.vlans, ∃ v ∈ d.vlans, u.vid = 100 ∧ v.vid = 200 ∧ ∃ x ∈ u.vips, ∃ y ∈ v.vips, x.inNetOf y = true :=
  accepted (by decide +kernel)

/-- Whether a router of one VLAN that is in another router too is accepted depends on the order of the routers (`faucet/dp.py` 1286-1295). -/
theorem lone_vlan_order_defect :
    let dps : List DpConf := [{ name := 1, dpId := 1, interfaces := [(.num 1, { native := some (.num 100) }), (.num 2, { native := some (.num 200) })] }]
    (parse { dps := dps, routers := [(1, [.num 100]), (2, [.num 100, .num 200])] }).isSome = true ∧
    (parse { dps := dps, routers := [(2, [.num 100, .num 200]), (1, [.num 100])] }).isSome = false := by
  constructor <;> decide +kernel

/-- A router may name VLANs that do not exist: they are left out without a word (`faucet/dp.py` 1262-1271). -/
theorem unknown_router_vlan_defect : ∃ dps, parse { routers := [(1, [.num 100, .name (.other 9)])], dps := [{ name := 1, dpId := 1, interfaces := [(.num 1, { native := some (.num 100) })] }] } = some dps ∧
      ∃ d ∈ dps, d.routers.map (fun r => (r.1, r.2.map (·.vid))) = [(1, [100])] :=
  accepted (by decide +kernel)

/-- A stack link may be configured from one end only: the check counts links by the names of ports (`faucet/stack.py` 264-273, 325-342), and
two ports of a switch may have one name. Ports 1 and 2 of switch 1 are both called "x" and both lead to port 1 of switch 2, which is a host
port and has no stack configuration. -/
theorem one_sided_link_defect : ∃ dps, parse { dps := [
      { name := 1, dpId := 1, priority := some 1, interfaces := [(.num 1, { name := some (.other 1), stack := some (2, .num 1) }),
        (.num 2, { name := some (.other 1), stack := some (2, .num 1) })] },
      { name := 2, dpId := 2, interfaces := [(.num 1, { native := some (.num 100) })] }] } = some dps ∧
      ∃ d ∈ dps, d.conf.name = 2 ∧ ∀ p ∈ d.ports, p.stack = none :=
  accepted (by decide +kernel)

/-- A stack link may join two ports of one switch. -/
theorem self_link_defect : ∃ dps, parse { dps := [
      { name := 1, dpId := 1, priority := some 1, interfaces := [(.num 1, { stack := some (1, .num 2) }), (.num 2, { stack := some (1, .num 1) }),
        (.num 3, { native := some (.num 100) })] }] } = some dps ∧
      ∃ d ∈ dps, ∃ p ∈ d.ports, p.stack = some (d.conf.name, .num 2) :=
  accepted (by decide +kernel)

/-- An ACL that mirrors to a port of a VLAN turns it into a port for output only (`faucet/dp.py` 1172-1175): it stays a member of the VLAN
and gets its broadcasts, but nothing that arrives on it is forwarded. -/
theorem acl_mirror_output_only_defect : ∃ dps, parse { acls := [(7, [.num 2])], dps := [{ name := 1, dpId := 1, interfaces := [(.num 1, { native := some (.num 100), acls := [7] }), (.num 2, { native := some (.num 100) })] }] } = some dps ∧
      ∃ d ∈ dps, ∃ p ∈ d.ports, p.number = 2 ∧ p.outputOnly = true ∧ p.native = some 100 ∧ ∃ v ∈ d.vlans, v.untagged = [1, 2] :=
  accepted (by decide +kernel)

end Faucet.Valid.Ex
