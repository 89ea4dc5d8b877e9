import Verif.Routed.Props
import Verif.L2.DeliveryExamples

/-! # Routing IPv4 on one standalone switch: cases that meet the hypotheses, and defects -/

namespace Faucet.Routed.Ex
open Faucet.OF
open Faucet.L2 (mirrors_all LPort Wire Plain Ordinary Takes copies Carried)
open Faucet.L2.Ex (swOf within_swOf send send_proc)

/-! ## Playing runs -/

def empty : L2.Ctl × List OfMsg := (L2.Ctl.init, [])

def rplay (c : RCfg) (r : L2.Ctl × List OfMsg) (ev : L2.Ev) : Option (L2.Ctl × List OfMsg) :=
  (c.l2.react r.1 ev).bind (fun x => (FlowReorder.reorder id true x.1).map (fun out => (x.2, r.2 ++ out ++ c.evMsgs ev)))

theorem played {c : RCfg} {r : L2.Ctl × List OfMsg} {ev : L2.Ev} (h : (rplay c r ev).isSome) : rplay c r ev = some ((rplay c r ev).getD empty) := by
  obtain ⟨x, hx⟩ := Option.isSome_iff_exists.1 h
  rw [hx]; rfl

def envX : Route.Env := { floods := fun _ => 1, jitter := fun _ => 0, hard := 60, shuffle := id }

def rop (c : RCfg) (r : L2.Ctl × List OfMsg) (st : Route.St) (o : Route.Op) : L2.Ctl × List OfMsg :=
  (r.1, r.2 ++ FlowReorder.deletesFirst (Route.flowMods (c.mgr.step envX st o).2))

def ropSt (c : RCfg) (st : Route.St) (o : Route.Op) : Route.St := (c.mgr.step envX st o).1

abbrev okp (c : RCfg) : Pkt → Prop := fun k => Wire k ∧ Plain c.l2 k

theorem run_start {c : RCfg} {P : Route.Net → Prop} {st0 : Route.St} {now : Int} {up : List Nat} {lag : Nat → L2.LagChange}
    {r : L2.Ctl × List OfMsg} (hst : Route.Static c.mgr c.vlans P st0) (h : rplay c empty (.connect now up lag) = some r) :
    Run c (okp c) P ⟨⟨r.1, swOf r, fun _ => False⟩, st0⟩ (fun i => up.contains i) := by
  unfold rplay at h
  obtain ⟨x, hx, h⟩ := Option.bind_eq_some_iff.1 h
  obtain ⟨out, ho, rfl⟩ := Option.map_eq_some_iff.1 h
  have := Run.start (ok := okp c) (sw0 := emptySwitch) (sh := id) (bar := true) hst (fun l => List.Perm.refl l) hx ho
  have hs : swOf (x.2, empty.2 ++ out ++ c.evMsgs (.connect now up lag)) = (emptySwitch.execAll out).execAll (c.evMsgs (.connect now up lag)) := by
    simp [swOf, empty, Switch.execAll]
  rw [hs]
  exact this

theorem run_event {c : RCfg} {P : Route.Net → Prop} {st : Route.St} {r r' : L2.Ctl × List OfMsg} {ev : L2.Ev} {seen : L2.PacketIn → Prop}
    {u : Nat → Bool} (h : Run c (okp c) P ⟨⟨r.1, swOf r, seen⟩, st⟩ u) (he : ∀ now k, ev = .packetIn now k → seen k)
    (hp : rplay c r ev = some r') : Run c (okp c) P ⟨⟨r'.1, swOf r', seen⟩, evSt st ev⟩ (ev.upAfter u) := by
  unfold rplay at hp
  obtain ⟨x, hx, hp⟩ := Option.bind_eq_some_iff.1 hp
  obtain ⟨out, ho, rfl⟩ := Option.map_eq_some_iff.1 hp
  have := Run.event (sh := id) (bar := true) h (fun l => List.Perm.refl l) he hx ho
  have hs : swOf (x.2, r.2 ++ out ++ c.evMsgs ev) = ((swOf r).execAll out).execAll (c.evMsgs ev) := by simp [swOf, Switch.execAll]
  rw [hs]
  exact this

theorem run_op {c : RCfg} {P : Route.Net → Prop} {st : Route.St} {r : L2.Ctl × List OfMsg} {seen : L2.PacketIn → Prop} {u : Nat → Bool}
    (h : Run c (okp c) P ⟨⟨r.1, swOf r, seen⟩, st⟩ u) (hr : r.1.running = true) (o : Route.Op) (ht : Route.Tame c.mgr c.vlans P st o) :
    Run c (okp c) P ⟨⟨(rop c r st o).1, swOf (rop c r st o), seen⟩, ropSt c st o⟩ u := by
  have := Run.route envX o h (fun l => List.Perm.refl l) ht
  have hs : swOf (rop c r st o) = (swOf r).execAll (FlowReorder.deletesFirst (Route.flowMods (c.mgr.step envX st o).2)) := by
    simp [swOf, rop, Switch.execAll]
  rw [hs]
  unfold sendIf at this
  rw [hr, if_pos rfl] at this
  exact this

/-- A packet comes in, goes to FAUCET, and FAUCET learns the source. -/
theorem run_learn {c : RCfg} {P : Route.Net → Prop} {st : Route.St} {r r' : L2.Ctl × List OfMsg} {seen : L2.PacketIn → Prop} {u : Nat → Bool}
    (h : Run c (okp c) P ⟨⟨r.1, swOf r, seen⟩, st⟩ u) {k : Pkt} (hk : Wire k) (hpl : Plain c.l2 k)
    {pin : L2.PacketIn} {now : Int}
    (hs : ((evalProc (addSlots r.2) (swOf r) 20 0 k).map (fun es => es.any (fun e => e.port == portController && L2.Emit.toPacketIn e == pin))) = some true)
    (hev : rplay c r (.packetIn now pin) = some r') : ∃ seen', Run c (okp c) P ⟨⟨r'.1, swOf r', seen'⟩, st⟩ u := by
  obtain ⟨es, h1, h2⟩ := Option.map_eq_some_iff.1 hs
  have h1 := evalProc_sound (within_swOf r) h1
  obtain ⟨e, he, h3⟩ := List.any_eq_true.1 h2
  simp only [Bool.and_eq_true, beq_iff_eq] at h3
  have hr := Run.packet h ⟨hk, hpl⟩ h1
  exact ⟨_, run_event hr (fun now k hk => by cases hk; exact Or.inr ⟨e, he, h3.1, h3.2.symm⟩) hev⟩

/-- What the switch has for prefixes. -/
theorem installed_of {c : RCfg} {r : L2.Ctl × List OfMsg} (l : List (Nat × Route.Net))
    (h : ∀ sl ∈ addSlots r.2, sl.table = c.mgr.fib.id → sl.items ≠ [] → ∃ x ∈ l, sl = c.mgr.slot x.1 x.2) {vid : Nat} {n : Route.Net}
    (hi : Route.Installed c.mgr (swOf r) vid n) : n ∈ l.map (·.2) := by
  obtain ⟨b, hb⟩ := hi
  obtain ⟨x, hx, he⟩ := h _ (within_swOf r _ _ hb) rfl (by simp [Route.Mgr.slot, Route.Mgr.routeMatch])
  obtain ⟨rfl, -⟩ := Route.slot_net he
  exact List.mem_map.2 ⟨x, hx, rfl⟩

/-! ## A switch with two VLANs and a router between them

Ports 1 and 3 are in VLAN 100, ports 2, 3 and 5 in VLAN 200; port 3 is tagged, port 1 is mirrored to port 4. -/

def macA : Nat := 0x0E0000000001
def macB : Nat := 0x0E0000000002

/-- VLAN 100, 10.0.1.254/24. -/
def vA : Route.Vlan := { vid := 100, mac := macA, vips := [⟨0x0a0001fe, 24⟩] }
/-- VLAN 200, 10.0.2.254/24. -/
def vB : Route.Vlan := { vid := 200, mac := macB, vips := [⟨0x0a0002fe, 24⟩] }

def rp1 : LPort where
  number := 1
  native := some 100
  mirror := [4]
  maxHosts := 0
def rp2 : LPort where
  number := 2
  native := some 200
  maxHosts := 0
def rp3 : LPort where
  number := 3
  tagged := [100, 200]
  maxHosts := 0

def confR (comb : Bool) : RCfg where
  l2 := {
    ports := [rp1, rp2, rp3, { number := 4, outputOnly := true, maxHosts := 0 }, { number := 5, native := some 200, maxHosts := 0 }]
    vlans := [{ vid := 100, maxHosts := 0, faucetMac := macA }, { vid := 200, maxHosts := 0, faucetMac := macB }]
    combinatorial := comb
    ipv4 := true }
  vlans := [vA, vB]
  routers := [⟨[vA, vB]⟩]

theorem confR_wf (b : Bool) : (confR b).l2.WF := by
  refine ⟨by cases b <;> decide, by cases b <;> decide, by cases b <;> decide, by cases b <;> decide, ?_, ?_, mirrors_all (by cases b <;> decide)⟩
  · intro p hp vid h
    simp only [confR, List.mem_cons, List.not_mem_nil, or_false] at hp
    rcases hp with rfl | rfl | rfl | rfl | rfl <;> simp [rp1, rp2, rp3] at h
    · exact ⟨{ vid := 100, maxHosts := 0, faucetMac := macA }, by simp [confR], h⟩
    · exact ⟨{ vid := 200, maxHosts := 0, faucetMac := macB }, by simp [confR], h⟩
    · rcases h with rfl | rfl
      · exact ⟨{ vid := 100, maxHosts := 0, faucetMac := macA }, by simp [confR], rfl⟩
      · exact ⟨{ vid := 200, maxHosts := 0, faucetMac := macB }, by simp [confR], rfl⟩
    · exact ⟨{ vid := 200, maxHosts := 0, faucetMac := macB }, by simp [confR], h⟩
  · intro p hp vid h
    simp only [confR, List.mem_cons, List.not_mem_nil, or_false] at hp
    rcases hp with rfl | rfl | rfl | rfl | rfl <;> simp [rp1, rp2, rp3] at h ⊢

theorem confR_basic (b : Bool) : (confR b).l2.Basic := by
  cases b <;> exact ⟨by decide, by decide, by decide, by decide, by decide, by decide, by decide, by decide, by decide, by decide⟩

theorem vipMapA {ip : Nat} (h : (vA.vipMap 32 ip).isSome) : ip &&& Route.mask 32 24 = 0x0a000100 := by
  unfold Route.Vlan.vipMap at h
  simp only [vA, List.find?_cons, List.find?_nil] at h
  cases hc : (Route.Vip.net 32 ⟨0x0a0001fe, 24⟩).contains 32 ip with
  | false => rw [hc] at h; cases h
  | true => exact beq_iff_eq.1 hc

theorem vipMapB {ip : Nat} (h : (vB.vipMap 32 ip).isSome) : ip &&& Route.mask 32 24 = 0x0a000200 := by
  unfold Route.Vlan.vipMap at h
  simp only [vB, List.find?_cons, List.find?_nil] at h
  cases hc : (Route.Vip.net 32 ⟨0x0a0002fe, 24⟩).contains 32 ip with
  | false => rw [hc] at h; cases h
  | true => exact beq_iff_eq.1 hc

theorem confR_ok (b : Bool) : (confR b).Ok where
  wf := confR_wf b
  basic := confR_basic b
  ipv4 := rfl
  vlans := by cases b <;> decide
  conf := {
    distinct := by cases b <;> decide
    vid := by cases b <;> decide
    global := by cases b <;> decide
    routers := by cases b <;> decide
    apart := by
      intro u hu v hv rv ip _ _ h1 h2
      simp only [confR, List.mem_cons, List.not_mem_nil, or_false] at hu hv
      rcases hu with rfl | rfl <;> rcases hv with rfl | rfl
      · rfl
      · have a := vipMapA h1; rw [vipMapB h2] at a; exact absurd a (by decide)
      · have a := vipMapB h1; rw [vipMapA h2] at a; exact absurd a (by decide)
      · rfl
    table := by cases b <;> decide
    tables := by cases b <;> decide }
  vips := ⟨by cases b <;> decide, by cases b <;> decide⟩

abbrev PR (b : Bool) : Route.Net → Prop := (confR b).Routable

theorem no_routes (c : RCfg) (P : Route.Net → Prop) : Route.Static c.mgr c.vlans P (fun _ => {}) where
  rib := fun _ _ => ⟨[], trivial, rfl⟩
  gws := fun _ _ _ _ h => (by cases h)
  uniq := fun _ _ _ _ _ _ _ _ h => absurd rfl h

def up5 : List Nat := [1, 2, 3, 4, 5]

def bootR (b : Bool) : L2.Ctl × List OfMsg := (rplay (confR b) empty (.connect 1000 up5 (fun _ => none))).getD empty

theorem bootR_run (b : Bool) : Run (confR b) (okp (confR b)) (PR b) ⟨⟨(bootR b).1, swOf (bootR b), fun _ => False⟩, fun _ => {}⟩
    (fun i => up5.contains i) := run_start (no_routes _ _) (played (by cases b <;> decide +kernel))

/-- An IPv4 packet. -/
def ipk (inPort src dst : Nat) (tags : List (Nat × Nat)) (ip : Nat) : Pkt where
  hdr := fun f => if f = fInPort then some inPort else if f = fEthSrc then some src else if f = fEthDst then some dst
    else if f = fEthType then some typeIp else if f = fIpv4Dst then some ip else none
  tags := tags

/-- An ARP packet. -/
def ark (inPort src dst : Nat) (tags : List (Nat × Nat)) (tpa : Nat) : Pkt where
  hdr := fun f => if f = fInPort then some inPort else if f = fEthSrc then some src else if f = fEthDst then some dst
    else if f = fEthType then some typeArp else if f = fArpTpa then some tpa else none
  tags := tags

theorem plain_ip {c : RCfg} {n src dst ip : Nat} {tags : List (Nat × Nat)} : Plain c.l2 (ipk n src dst tags ip) := by
  intro p _ _ hc
  rcases hc with ⟨-, -, h⟩ | ⟨-, -, h⟩ <;> exact absurd (Option.some.inj h) (by decide)

theorem plain_arp {c : RCfg} {n src dst ip : Nat} {tags : List (Nat × Nat)} : Plain c.l2 (ark n src dst tags ip) := by
  intro p _ _ hc
  rcases hc with ⟨-, -, h⟩ | ⟨-, -, h⟩ <;> exact absurd (Option.some.inj h) (by decide)

/-- Host 10.0.2.1 in VLAN 200 asks the router for its MAC. FAUCET learns it, -/
def learnR (b : Bool) : L2.Ctl × List OfMsg := (rplay (confR b) (bootR b) (.packetIn 1001 ⟨2, [(200, 0)], 0x22⟩)).getD empty

def askR : Route.Op := .askVip 1001 vB 2 0x22 0x0a000201 0x0a0002fe

/-- and routes to it. -/
def hostR (b : Bool) : L2.Ctl × List OfMsg := rop (confR b) (learnR b) (fun _ => {}) askR

def stR (b : Bool) : Route.St := ropSt (confR b) (fun _ => {}) askR

theorem tame_ask (b : Bool) : Route.Tame (confR b).mgr (confR b).vlans (PR b) (fun _ => {}) askR := by
  refine ⟨?_, fun _ => ⟨⟨?_, ?_, ?_⟩, ?_⟩⟩ <;> cases b <;> decide

theorem learnR_run (b : Bool) : ∃ seen, Run (confR b) (okp (confR b)) (PR b) ⟨⟨(learnR b).1, swOf (learnR b), seen⟩, fun _ => {}⟩ (fun i => up5.contains i) :=
  run_learn (bootR_run b) (k := ark 2 0x22 0xFFFFFFFFFFFF [] 0x0a0002fe) (fun _ h => absurd h List.not_mem_nil) plain_arp
    (by cases b <;> decide +kernel) (played (by cases b <;> decide +kernel))

theorem hostR_run (b : Bool) : ∃ seen, Run (confR b) (okp (confR b)) (PR b) ⟨⟨(hostR b).1, swOf (hostR b), seen⟩, stR b⟩ (fun i => up5.contains i) := by
  obtain ⟨seen, h⟩ := learnR_run b
  exact ⟨seen, run_op h (by cases b <;> decide +kernel) askR (tame_ask b)⟩

/-- The prefixes that the switch has. -/
def netsR : List (Nat × Route.Net) :=
  [(100, ⟨0x0a0001fe, 32⟩), (200, ⟨0x0a0002fe, 32⟩), (100, ⟨0x0a000100, 24⟩), (200, ⟨0x0a000100, 24⟩), (100, ⟨0x0a000200, 24⟩),
   (200, ⟨0x0a000200, 24⟩), (100, ⟨0x0a000201, 32⟩), (200, ⟨0x0a000201, 32⟩)]

theorem hostR_nets (b : Bool) {vid : Nat} {n : Route.Net} (h : Route.Installed (confR b).mgr (swOf (hostR b)) vid n) : n ∈ netsR.map (·.2) :=
  installed_of netsR (by cases b <;> decide +kernel) h

theorem ord_ip {b : Bool} {p : LPort} {src dst ip vid : Nat} {tags inner : List (Nat × Nat)} (hs : src < 0x0E0000000000)
    (hd : dst < 0x010000000000 ∨ (0x0E0000000000 ≤ dst ∧ dst < 2 ^ 48)) (ht : ∀ t ∈ tags, t.1 < 4096) (hc : Carried p tags vid inner) :
    Ordinary (confR b).l2 p (ipk p.number src dst tags ip) vid inner src dst where
  port := rfl
  from_ := rfl
  to_ := rfl
  notBroadcast := by omega
  notGateway := by
    intro v hv h
    have : ∀ v ∈ (confR b).l2.vlans, 0x0E0000000000 ≤ v.faucetMac := by cases b <;> decide
    have := this v hv
    omega
  mac := by omega
  notReserved := by omega
  type := by simp [ipk, fEthType, fInPort, fEthSrc, fEthDst, typeIp]
  wire := ht
  carried := hc

theorem ord_arp {b : Bool} {p : LPort} {src dst ip vid : Nat} {tags inner : List (Nat × Nat)} (hs : src < 0x0E0000000000)
    (hd : dst < 0x010000000000 ∨ (0x0E0000000000 ≤ dst ∧ dst < 2 ^ 48)) (ht : ∀ t ∈ tags, t.1 < 4096) (hc : Carried p tags vid inner) :
    Ordinary (confR b).l2 p (ark p.number src dst tags ip) vid inner src dst where
  port := rfl
  from_ := rfl
  to_ := rfl
  notBroadcast := by omega
  notGateway := by
    intro v hv h
    have : ∀ v ∈ (confR b).l2.vlans, 0x0E0000000000 ≤ v.faucetMac := by cases b <;> decide
    have := this v hv
    omega
  mac := by omega
  notReserved := by omega
  type := by simp [ark, fEthType, fInPort, fEthSrc, fEthDst, typeArp]
  wire := ht
  carried := hc

theorem takes1 : Takes (fun i => up5.contains i) rp1 := ⟨rfl, rfl, rfl⟩
theorem takes2 : Takes (fun i => up5.contains i) rp2 := ⟨rfl, rfl, rfl⟩
theorem takes3 : Takes (fun i => up5.contains i) rp3 := ⟨rfl, rfl, rfl⟩

theorem running_host (b : Bool) : (hostR b).1.running = true := by cases b <;> decide +kernel

theorem route_host (b : Bool) : (stR b vB.vid).routes.get? ⟨0x0a000201, 32⟩ = some 0x0a000201 := by cases b <;> decide +kernel

theorem eth_host (b : Bool) : ∃ n, (stR b vB.vid).cache.get? 0x0a000201 = some n ∧ n.eth = some 0x22 := by
  have h : ((stR b vB.vid).cache.get? 0x0a000201).map (·.eth) = some (some 0x22) := by cases b <;> decide +kernel
  exact Option.map_eq_some_iff.1 h

theorem at_host (b : Bool) : ∃ e, Learn.host (hostR b).1.learn 200 0x22 = some e ∧ e.port.number = 2 :=
  Option.map_eq_some_iff.1 (show (Learn.host (hostR b).1.learn 200 0x22).map (fun e => e.port.number) = some 2 by cases b <;> decide +kernel)

attribute [irreducible] bootR learnR hostR stR

/-- A packet of VLAN 100 to the router, for 10.0.2.1. -/
theorem to_route (b : Bool) (seen : L2.PacketIn → Prop) {n src : Nat} {tags : List (Nat × Nat)} :
    ToRoute (confR b) ⟨⟨(hostR b).1, swOf (hostR b), seen⟩, stR b⟩ (ipk n src macA tags 0x0a000201) 100 vB 0x22 where
  router := ⟨rfl, vA, by simp [confR], rfl, by simp [vA], rfl⟩
  vlan := by simp [confR]
  serves := Route.serves_iff.2 (by cases b <;> decide)
  route := by
    refine ⟨0x0a000201, ⟨0x0a000201, 32⟩, 0x0a000201, rfl, by decide, route_host b, eth_host b, ?_⟩
    intro n' h1 h2
    have hall : ∀ x ∈ netsR.map (·.2), x.len ≤ 32 := by decide
    exact hall n' (hostR_nets b h1)

theorem noban (b : Bool) {s : Sys} {u : Nat → Bool} (h : Run (confR b) (okp (confR b)) (PR b) s u) : NoBan (confR b) s.l2.sw :=
  unlimited_no_ban (confR_ok b) (fun _ h => h) (by cases b <;> exact ⟨by decide, by decide⟩) h

/-- **C69.** A packet from VLAN 100 to a host of VLAN 200 goes through the router to the host, in through
port 3 and out through port 2. -/
example (b : Bool) : ∃ es, Proc (swOf (hostR b)) 0 (ipk 3 0x11 macA [(100, 0)] 0x0a000201) es ∧
    GetsRouted rp2 (ipk 3 0x11 macA [(100, 0)] 0x0a000201) vB 0x22 [] es ∧ outs es = [(2, [])] := by
  obtain ⟨seen, h⟩ := hostR_run b
  obtain ⟨es, h1, h2⟩ := send_proc (r := hostR b) (k := ipk 3 0x11 macA [(100, 0)] 0x0a000201) (l := [(2, [])]) (by cases b <;> decide +kernel)
  refine ⟨es, h1, ?_, h2⟩
  exact next_hop_gets_partial (confR_ok b) (fun _ h => h) h (running_host b) (p := rp3) (by simp [confR]) takes3
    (ord_ip (by decide) (Or.inr (by decide)) (by decide) (.tagged (by simp [rp3]))) (to_route b seen) (by decide) h1 (q := rp2) (by simp [confR]) (at_host b)
    (by decide) (Or.inr (by simp [rp3, LPort.In, vB]))

/-- Through port 1, outside VLAN 200 and mirrored to port 4. -/
example (b : Bool) : ∃ es, Proc (swOf (hostR b)) 0 (ipk 1 0x11 macA [] 0x0a000201) es ∧
    (∀ e ∈ es, e.port ∈ rp1.mirror ∨ (InVlan (confR b) 200 [] e ∧ Rewritten (ipk 1 0x11 macA [] 0x0a000201) vB 0x22 e)) ∧
    outs es = [(4, []), (2, [])] := by
  obtain ⟨seen, h⟩ := hostR_run b
  obtain ⟨es, h1, h2⟩ := send_proc (r := hostR b) (k := ipk 1 0x11 macA [] 0x0a000201) (l := [(4, []), (2, [])]) (by cases b <;> decide +kernel)
  refine ⟨es, h1, ?_, h2⟩
  exact routed_only_partial (confR_ok b) (fun _ h => h) h (running_host b) (p := rp1) (by simp [confR]) takes1
    (ord_ip (by decide) (Or.inr (by decide)) (by decide) (.untagged rfl)) (to_route b seen) h1

/-- An IPv4 packet of VLAN 100 to a host of VLAN 100 is switched: nobody has heard of the host, so it is flooded. FAUCET gets it
as it has not heard of the source. -/
example (b : Bool) : ∃ es, Proc (swOf (hostR b)) 0 (ipk 1 0x11 0x12 [] 0x0a000102) es ∧
    (L2.Flooded (confR b).l2 rp1 (ipk 1 0x11 0x12 [] 0x0a000102) 100 [] es ∨
    ∃ q ∈ (confR b).l2.ports, q.In 100 ∧ L2.Unicast (confR b).l2 rp1 q (ipk 1 0x11 0x12 [] 0x0a000102) 100 [] es) ∧
    outs es = [(4, []), (portController, [(100, 0)]), (3, [(100, 0)])] := by
  obtain ⟨seen, h⟩ := hostR_run b
  obtain ⟨es, h1, h2⟩ := send_proc (r := hostR b) (k := ipk 1 0x11 0x12 [] 0x0a000102)
    (l := [(4, []), (portController, [(100, 0)]), (3, [(100, 0)])]) (by cases b <;> decide +kernel)
  refine ⟨es, h1, ?_, h2⟩
  rcases unrouted_delivery_partial (confR_ok b) (fun _ h => h) h (noban b h) (p := rp1) (by simp [confR]) takes1
    (ord_ip (by decide) (Or.inl (by decide)) (by decide) (.untagged rfl)) (fun h => absurd (Option.some.inj h) (by decide))
    (by
      rintro ⟨-, w, hw, -, -, hd⟩
      have hm : ∀ w ∈ (confR b).vlans, w.mac ≠ 0x12 := by cases b <;> decide
      exact hm w hw (Option.some.inj hd).symm) h1 with hf | ⟨q, hq, hin, -, -, hu, -⟩
  · exact Or.inl hf
  · exact Or.inr ⟨q, hq, hin, hu⟩

/-- FAUCET has heard of nobody when the switch has just connected. -/
example (b : Bool) : ∃ es, Proc (swOf (bootR b)) 0 (ipk 1 0x11 0x12 [] 0x0a000102) es ∧
    (∃ e ∈ es, e.port = portController ∧ (L2.Emit.toPacketIn e).src = 0x11) := by
  obtain ⟨es, h1, h2⟩ := send_proc (r := bootR b) (k := ipk 1 0x11 0x12 [] 0x0a000102)
    (l := [(4, []), (portController, [(100, 0)]), (3, [(100, 0)])]) (by cases b <;> decide +kernel)
  refine ⟨es, h1, ?_⟩
  exact unrouted_source_told_partial (confR_ok b) (fun _ h => h) (bootR_run b) (noban b (bootR_run b)) (p := rp1) (by simp [confR]) takes1
    (ord_ip (by decide) (Or.inl (by decide)) (by decide) (.untagged rfl)) (fun h => absurd (Option.some.inj h) (by decide))
    (by
      rintro ⟨-, w, hw, -, -, hd⟩
      have hm : ∀ w ∈ (confR b).vlans, w.mac ≠ 0x12 := by cases b <;> decide
      exact hm w hw (Option.some.inj hd).symm) h1 (by rintro ⟨x, hx, -⟩; exact hx)

/-- ARP for the router's address: only FAUCET gets it, and the mirror. -/
example (b : Bool) : ∃ es, Proc (swOf (hostR b)) 0 (ark 1 0x11 0xFFFFFFFFFFFF [] 0x0a0001fe) es ∧
    OnlyFaucet rp1 (ark 1 0x11 0xFFFFFFFFFFFF [] 0x0a0001fe) 100 [] es ∧ outs es = [(4, []), (portController, [(100, 0)])] := by
  obtain ⟨seen, h⟩ := hostR_run b
  obtain ⟨es, h1, h2⟩ := send_proc (r := hostR b) (k := ark 1 0x11 0xFFFFFFFFFFFF [] 0x0a0001fe)
    (l := [(4, []), (portController, [(100, 0)])]) (by cases b <;> decide +kernel)
  exact ⟨es, h1, arp_for_router_partial (confR_ok b) (fun _ h => h) h (p := rp1) (by simp [confR]) takes1
    (ord_arp (by decide) (Or.inr (by decide)) (by decide) (.untagged rfl)) rfl (v := vA) (by simp [confR]) rfl
    (x := ⟨0x0a0001fe, 24⟩) (by simp [vA]) (Or.inr ⟨rfl, rfl⟩) h1, h2⟩

/-- ARP for a host of the VLAN is flooded in the VLAN. -/
example (b : Bool) : ∃ es, Proc (swOf (hostR b)) 0 (ark 1 0x11 0xFFFFFFFFFFFF [] 0x0a000102) es ∧
    (L2.Flooded (confR b).l2 rp1 (ark 1 0x11 0xFFFFFFFFFFFF [] 0x0a000102) 100 [] es ∨
    ∃ q ∈ (confR b).l2.ports, q.In 100 ∧ L2.Unicast (confR b).l2 rp1 q (ark 1 0x11 0xFFFFFFFFFFFF [] 0x0a000102) 100 [] es) ∧
    outs es = [(4, []), (3, [(100, 0)])] := by
  obtain ⟨seen, h⟩ := hostR_run b
  obtain ⟨es, h1, h2⟩ := send_proc (r := hostR b) (k := ark 1 0x11 0xFFFFFFFFFFFF [] 0x0a000102)
    (l := [(4, []), (3, [(100, 0)])]) (by cases b <;> decide +kernel)
  refine ⟨es, h1, ?_, h2⟩
  rcases arp_switched_partial (confR_ok b) (fun _ h => h) h (p := rp1) (by simp [confR]) takes1
    (ord_arp (by decide) (Or.inr (by decide)) (by decide) (.untagged rfl)) rfl ⟨vA, by simp [confR], rfl, by simp [vA]⟩
    (by
      intro w hw
      have hm : ∀ w ∈ (confR b).vlans, 0xFFFFFFFFFFFF ≠ w.mac ∧ ∀ y ∈ w.vips, y.ip ≠ 0x0a000102 := by cases b <;> decide
      exact ⟨(hm w hw).1, fun _ y hy h => (hm w hw).2 y hy (Option.some.inj h).symm⟩) h1 with hf | ⟨q, hq, hin, -, hu, -⟩
  · exact Or.inl hf
  · exact Or.inr ⟨q, hq, hin, hu⟩

/-- A packet of VLAN 100 to 10.0.2.9, whose MAC FAUCET does not know, goes to FAUCET, that can look for it. -/
example (b : Bool) : ∃ es, Proc (swOf (hostR b)) 0 (ipk 1 0x11 macA [] 0x0a000209) es ∧
    OnlyFaucet rp1 (ipk 1 0x11 macA [] 0x0a000209) 100 [] es ∧ outs es = [(4, []), (portController, [(100, 0)])] := by
  obtain ⟨seen, h⟩ := hostR_run b
  obtain ⟨es, h1, h2⟩ := send_proc (r := hostR b) (k := ipk 1 0x11 macA [] 0x0a000209)
    (l := [(4, []), (portController, [(100, 0)])]) (by cases b <;> decide +kernel)
  exact ⟨es, h1, to_faucet_partial (confR_ok b) (fun _ h => h) h (running_host b) rfl (p := rp1) (by simp [confR]) takes1
    (ord_ip (by decide) (Or.inr (by decide)) (by decide) (.untagged rfl)) rfl (w := vA) (by simp [confR]) rfl rfl
    ⟨⟨0x0a0001fe, 24⟩, by simp [vA], by simp [LinkLocal]⟩ (v := vB) (x := ⟨0x0a0002fe, 24⟩) (by simp [confR]) (by simp [vB]) (by simp [LinkLocal]) rfl
    (Or.inr ⟨Route.serves_iff.2 (by cases b <;> decide), rfl⟩) (by decide)
    (by
      intro n h1 h2
      have hall : ∀ x ∈ netsR.map (·.2), x.contains 32 0x0a000209 = true → x.len ≤ 24 := by decide
      exact hall n (hostR_nets b h1) h2) h1, h2⟩

/-- A packet to an address without a route goes nowhere. -/
example (b : Bool) : ∃ es, Proc (swOf (hostR b)) 0 (ipk 1 0x11 macA [] 0x08080808) es ∧ (∀ e ∈ es, e.port ∈ rp1.mirror) ∧ outs es = [(4, [])] := by
  obtain ⟨seen, h⟩ := hostR_run b
  obtain ⟨es, h1, h2⟩ := send_proc (r := hostR b) (k := ipk 1 0x11 macA [] 0x08080808)
    (l := [(4, [])]) (by cases b <;> decide +kernel)
  exact ⟨es, h1, no_route_drops_partial (confR_ok b) (fun _ h => h) h (running_host b) (p := rp1) (by simp [confR]) takes1
    (ord_ip (by decide) (Or.inr (by decide)) (by decide) (.untagged rfl)) ⟨rfl, vA, by simp [confR], rfl, by simp [vA], rfl⟩ rfl
    (by
      intro n h1
      have hall : ∀ x ∈ netsR.map (·.2), x.contains 32 0x08080808 = false := by decide
      exact hall n (hostR_nets b h1)) h1, h2⟩

/-- The same packet on any copy: `routed_isolation_partial`. -/
example (b : Bool) : ∃ es, Proc (swOf (hostR b)) 0 (ipk 1 0x11 macA [] 0x0a000201) es ∧ es ≠ [] ∧
    ∀ e ∈ es, (L2.SameContent (ipk 1 0x11 macA [] 0x0a000201) e ∧ L2.Allowed (confR b).l2 rp1 (ipk 1 0x11 macA [] 0x0a000201) e) ∨
      ∃ v mac, RoutedCopy (confR b) rp1 (ipk 1 0x11 macA [] 0x0a000201) v mac e := by
  obtain ⟨seen, h⟩ := hostR_run b
  obtain ⟨es, h1, h2⟩ := send_proc (r := hostR b) (k := ipk 1 0x11 macA [] 0x0a000201) (l := [(4, []), (2, [])]) (by cases b <;> decide +kernel)
  refine ⟨es, h1, (by rintro rfl; cases h2), ?_⟩
  intro e he
  rcases routed_isolation_partial (confR_ok b) (fun _ h => h) h (p := rp1) (by simp [confR]) (fun _ h => absurd h List.not_mem_nil) rfl h1 e he with
    h3 | ⟨v, mac, h3, -⟩
  · exact Or.inl h3
  · exact Or.inr ⟨v, mac, h3⟩

/-! ## Defects -/

/-- The rule for the host in the table of destinations. -/
def dstR : Slot := ⟨(confR true).l2.td, matchPriority, [Learn.iEthDst 0x22, Learn.iVlan 200]⟩

/-- The switch after that rule has expired. -/
def goneR : Switch := ⟨fun x => if x = dstR then none else (swOf (hostR true)).flows x, (swOf (hostR true)).groups, (swOf (hostR true)).meters⟩

/-- With flooding rules per port (`combinatorial_port_flood`), packets that the router sends into another VLAN are lost
while the switch does not have a rule for the MAC of the next hop, although FAUCET has the route and knows the MAC and the port of
the next hop: the flooding rules of a VLAN are only for packets that come in through the VLAN's ports. Here the rule for a host of
VLAN 200 has expired, and a packet for it that comes in through port 1 of VLAN 100 reaches nobody. With one rule per VLAN, it
is flooded. -/
theorem routed_lost_defect : ∃ s u, Run (confR true) (okp (confR true)) (PR true) s u ∧ Takes u rp1 ∧
    ToRoute (confR true) s (ipk 1 0x11 macA [] 0x0a000201) 100 vB 0x22 ∧ s.l2.Knows 200 0x22 rp2 ∧
    ∃ es, Proc s.l2.sw 0 (ipk 1 0x11 macA [] 0x0a000201) es ∧ outs es = [(4, [])] := by
  obtain ⟨seen, h⟩ := hostR_run true
  have hb : ((swOf (hostR true)).flows dstR).map (fun b => b.idle != 0 || b.hard != 0) = some true := by decide +kernel
  obtain ⟨b, hb, hi⟩ := Option.map_eq_some_iff.1 hb
  have hwithin : Within goneR (addSlots (hostR true).2) := by
    intro sl b hb
    unfold goneR at hb
    simp only at hb
    split at hb
    · cases hb
    · exact within_swOf _ sl b hb
  obtain ⟨es, h1, h2⟩ := evalProc_outs (n := 20) (t := 0) (k := ipk 1 0x11 macA [] 0x0a000201) (l := [(4, [])]) hwithin (by decide +kernel)
  refine ⟨_, _, Run.timeout h hb (by simpa [Bool.or_eq_true, bne_iff_ne, or_comm] using hi), takes1, ?_, at_host true, es, h1, h2⟩
  have ht := to_route true seen (n := 1) (src := 0x11) (tags := [])
  refine ⟨ht.router, ht.vlan, ht.serves, ?_⟩
  obtain ⟨ip, net, gw, h3, h4, h5, h6, h7⟩ := ht.route
  refine ⟨ip, net, gw, h3, h4, h5, h6, ?_⟩
  rintro n' ⟨b', hb'⟩ hc
  refine h7 n' ⟨b', ?_⟩ hc
  have hb' : goneR.flows _ = some b' := hb'
  unfold goneR at hb'
  simp only at hb'
  split at hb'
  · cases hb'
  · exact hb'

/-- Host 10.0.2.3 of VLAN 200 is behind port 3, that also carries VLAN 100. -/
def learnT (b : Bool) : L2.Ctl × List OfMsg := (rplay (confR b) (bootR b) (.packetIn 1001 ⟨3, [(200, 0)], 0x33⟩)).getD empty

def askT : Route.Op := .askVip 1001 vB 3 0x33 0x0a000203 0x0a0002fe

def hostT (b : Bool) : L2.Ctl × List OfMsg := rop (confR b) (learnT b) (fun _ => {}) askT

theorem tame_askT (b : Bool) : Route.Tame (confR b).mgr (confR b).vlans (PR b) (fun _ => {}) askT := by
  refine ⟨?_, fun _ => ⟨⟨?_, ?_, ?_⟩, ?_⟩⟩ <;> cases b <;> decide

theorem hostT_run (b : Bool) : ∃ seen, Run (confR b) (okp (confR b)) (PR b) ⟨⟨(hostT b).1, swOf (hostT b), seen⟩, ropSt (confR b) (fun _ => {}) askT⟩
    (fun i => up5.contains i) := by
  obtain ⟨seen, h⟩ := run_learn (bootR_run b) (k := ark 3 0x33 0xFFFFFFFFFFFF [(200, 0)] 0x0a0002fe) (show ∀ t ∈ [(200, 0)], t.1 < 4096 by decide) plain_arp
    (pin := ⟨3, [(200, 0)], 0x33⟩) (now := 1001) (by cases b <;> decide +kernel) (r' := learnT b) (played (by cases b <;> decide +kernel))
  exact ⟨seen, run_op h (by cases b <;> decide +kernel) askT (tame_askT b)⟩

/-- FAUCET does not route between two VLANs of one trunk port: a packet of VLAN 100 that comes in through port 3, for a
host of VLAN 200 behind port 3, is lost, as the rule for the host sends it to the port and not back to the port it came in
through (`OFPP_IN_PORT` is only used with `hairpin`). -/
theorem same_trunk_not_routed_defect (b : Bool) : (∃ seen u, Takes u rp3 ∧ Run (confR b) (okp (confR b)) (PR b)
      ⟨⟨(hostT b).1, swOf (hostT b), seen⟩, ropSt (confR b) (fun _ => {}) askT⟩ u) ∧
    (ropSt (confR b) (fun _ => {}) askT 200).routes.get? ⟨0x0a000203, 32⟩ = some 0x0a000203 ∧
    (ropSt (confR b) (fun _ => {}) askT 200).eth 0x0a000203 = some 0x33 ∧
    ∃ es, Proc (swOf (hostT b)) 0 (ipk 3 0x11 macA [(100, 0)] 0x0a000203) es ∧ outs es = [] := by
  obtain ⟨seen, h⟩ := hostT_run b
  obtain ⟨es, h1, h2⟩ := send_proc (r := hostT b) (k := ipk 3 0x11 macA [(100, 0)] 0x0a000203) (l := []) (by cases b <;> decide +kernel)
  exact ⟨⟨seen, _, takes3, h⟩, by cases b <;> decide +kernel, by cases b <;> decide +kernel, es, h1, h2⟩

/-- In a VLAN with an address of the router FAUCET is not told of hosts that only send ARP: ARP goes from the first table to that of
addresses of the router and from there to the table of destinations, past the table of sources. Here the switch has just
connected; a host asks for the MAC of another, and FAUCET does not get the packet. Without the router's address it would, see
`unrouted_source_told_partial`. -/
theorem arp_not_learned_defect (b : Bool) :
    (∃ u, Takes u rp1 ∧ Run (confR b) (okp (confR b)) (PR b) ⟨⟨(bootR b).1, swOf (bootR b), fun _ => False⟩, fun _ => {}⟩ u) ∧
    ∃ es, Proc (swOf (bootR b)) 0 (ark 1 0x11 0xFFFFFFFFFFFF [] 0x0a000102) es ∧ outs es = [(4, []), (3, [(100, 0)])] := by
  refine ⟨⟨_, takes1, bootR_run b⟩, ?_⟩
  exact send_proc (r := bootR b) (k := ark 1 0x11 0xFFFFFFFFFFFF [] 0x0a000102) (l := [(4, []), (3, [(100, 0)])]) (by cases b <;> decide +kernel)

/-- As `confR`, but no router between the VLANs. -/
def confS : RCfg := { confR false with routers := [] }

def bootS : L2.Ctl × List OfMsg := (rplay confS empty (.connect 1000 up5 (fun _ => none))).getD empty

/-- An address of the router in one VLAN cannot be used by a host of another, although no router is between them: ARP for it is
sent to FAUCET in every VLAN that has an address, and not flooded, as the rules for ARP do not match the VLAN. FAUCET does not
answer. Here it is 10.0.2.254, which the router has in VLAN 200, in VLAN 100. -/
theorem arp_other_vlan_defect :
    (∃ u, Takes u rp1 ∧ Run confS (okp confS) confS.Routable ⟨⟨bootS.1, swOf bootS, fun _ => False⟩, fun _ => {}⟩ u) ∧
    (confS.mgr.step envX (fun _ => {}) (.askVip 1001 vA 1 0x11 0x0a000101 0x0a0002fe)).2 = [] ∧
    ∃ es, Proc (swOf bootS) 0 (ark 1 0x11 0xFFFFFFFFFFFF [] 0x0a0002fe) es ∧ outs es = [(4, []), (portController, [(100, 0)])] := by
  refine ⟨⟨_, takes1, run_start (no_routes _ _) (r := bootS) (played (by decide +kernel))⟩, by decide +kernel, ?_⟩
  exact send_proc (r := bootS) (k := ark 1 0x11 0xFFFFFFFFFFFF [] 0x0a0002fe) (l := [(4, []), (portController, [(100, 0)])]) (by decide +kernel)

/-- As `confR`, without proactive learning. -/
def confN : RCfg := { confR false with proactive := false }

def bootN : L2.Ctl × List OfMsg := (rplay confN empty (.connect 1000 up5 (fun _ => none))).getD empty

/-- Without proactive learning (`proactive_learn_v4: False`) the router does not answer pings: the rule that sends ICMP for the
router to FAUCET is only added with proactive learning, so the switch drops a packet to 10.0.1.254. -/
theorem ping_needs_proactive_defect :
    (∃ u, Takes u rp1 ∧ Run confN (okp confN) confN.Routable ⟨⟨bootN.1, swOf bootN, fun _ => False⟩, fun _ => {}⟩ u) ∧
    ∃ es, Proc (swOf bootN) 0 (ipk 1 0x11 macA [] 0x0a0001fe) es ∧ outs es = [(4, [])] := by
  refine ⟨⟨_, takes1, run_start (no_routes _ _) (r := bootN) (played (by decide +kernel))⟩, ?_⟩
  exact send_proc (r := bootN) (k := ipk 1 0x11 macA [] 0x0a0001fe) (l := [(4, [])]) (by decide +kernel)

/-- As `confR`, but port 1 may have one host only. -/
def confL : RCfg where
  l2 := {
    ports := [{ rp1 with maxHosts := 1 }, rp2, rp3, { number := 4, outputOnly := true, maxHosts := 0 }, { number := 5, native := some 200, maxHosts := 0 }]
    vlans := [{ vid := 100, maxHosts := 0, faucetMac := macA }, { vid := 200, maxHosts := 0, faucetMac := macB }]
    ipv4 := true }
  vlans := [vA, vB]
  routers := [⟨[vA, vB]⟩]

def stepL (r : L2.Ctl × List OfMsg) (n : Nat) (tags : List (Nat × Nat)) (src : Nat) : L2.Ctl × List OfMsg :=
  (rplay confL r (.packetIn 1001 ⟨n, tags, src⟩)).getD empty

def bootL : L2.Ctl × List OfMsg := (rplay confL empty (.connect 1000 up5 (fun _ => none))).getD empty
/-- Host 10.0.2.1 of VLAN 200 is learned and routed to; then the first host of port 1, then a second. -/
def hostL : L2.Ctl × List OfMsg := rop confL (stepL bootL 2 [(200, 0)] 0x22) (fun _ => {}) askR
def banL : L2.Ctl × List OfMsg := stepL (stepL hostL 1 [(100, 0)] 0x11) 1 [(100, 0)] 0x12

/-- A limit on the number of hosts of a port (`max_hosts`) does not stop a host from using the router: the rule that drops the
packets of further hosts has a lower priority than the rules that select packets for the router. Here port 1 may have one
host; a second one sends, and packets from it are dropped, but packets to the router are routed. -/
theorem over_limit_routed_defect :
    (∃ seen u, Takes u { rp1 with maxHosts := 1 } ∧ Run confL (okp confL) confL.Routable ⟨⟨banL.1, swOf banL, seen⟩, ropSt confL (fun _ => {}) askR⟩ u) ∧
    (∃ es, Proc (swOf banL) 0 (ipk 1 0x12 0x33 [] 0x0a000102) es ∧ outs es = [(4, [])]) ∧
    ∃ es, Proc (swOf banL) 0 (ipk 1 0x12 macA [] 0x0a000201) es ∧ outs es = [(4, []), (2, [])] := by
  refine ⟨?_, send_proc (r := banL) (k := ipk 1 0x12 0x33 [] 0x0a000102) (by decide +kernel),
    send_proc (r := banL) (k := ipk 1 0x12 macA [] 0x0a000201) (by decide +kernel)⟩
  have h0 := run_start (no_routes _ confL.Routable) (r := bootL) (played (by decide +kernel))
  obtain ⟨s1, h1⟩ := run_learn h0 (k := ark 2 0x22 0xFFFFFFFFFFFF [] 0x0a0002fe) (fun _ h => absurd h List.not_mem_nil) plain_arp
    (pin := ⟨2, [(200, 0)], 0x22⟩) (now := 1001) (by decide +kernel) (r' := stepL bootL 2 [(200, 0)] 0x22) (played (by decide +kernel))
  have h2 := run_op h1 (by decide +kernel) askR (by refine ⟨?_, fun _ => ⟨⟨?_, ?_, ?_⟩, ?_⟩⟩ <;> decide)
  obtain ⟨s3, h3⟩ := run_learn h2 (k := ipk 1 0x11 0x33 [] 0x0a000102) (fun _ h => absurd h List.not_mem_nil) plain_ip
    (pin := ⟨1, [(100, 0)], 0x11⟩) (now := 1001) (by decide +kernel) (r' := stepL hostL 1 [(100, 0)] 0x11) (played (by decide +kernel))
  obtain ⟨s4, h4⟩ := run_learn h3 (k := ipk 1 0x12 0x33 [] 0x0a000102) (fun _ h => absurd h List.not_mem_nil) plain_ip
    (pin := ⟨1, [(100, 0)], 0x12⟩) (now := 1001) (by decide +kernel) (r' := banL) (played (by decide +kernel))
  exact ⟨s4, _, ⟨rfl, rfl, rfl⟩, h4⟩

end Faucet.Routed.Ex
