import Verif.Routed.Rules

/-!
# Routing on one standalone switch: specification (C69)

In terms of the configuration, the routes and neighbours, the packet that comes in and the copies that go out.
-/

namespace Faucet.Routed
open Faucet.OF
open Faucet.L2 (LPort RightTags Carried Allowed SameContent)

/-- The packet, of VLAN `vid`, is for the router: an IPv4 packet to the router's address in the VLAN. -/
def ForRouter (c : RCfg) (k : Pkt) (vid : Nat) : Prop :=
  k.hdr fEthType = some typeIp ∧ ∃ w ∈ c.vlans, w.vid = vid ∧ w.vips ≠ [] ∧ k.hdr fEthDst = some w.mac

/-- A copy with the content of the packet, but from the router's address in VLAN `v` to `mac`; the TTL is not modelled. -/
structure Rewritten (k : Pkt) (v : Route.Vlan) (mac : Nat) (e : Emit) : Prop where
  src : e.hdr fEthSrc = some v.mac
  dst : e.hdr fEthDst = some mac
  rest : ∀ f, f ≠ fMetadata → f ≠ fEthSrc → f ≠ fEthDst → e.hdr f = k.hdr f

/-- The copy goes to a member of the VLAN, with or without its tag as configured, or to a mirror of a member. -/
def InVlan (c : RCfg) (vid : Nat) (inner : List (Nat × Nat)) (e : Emit) : Prop :=
  (∃ q ∈ c.l2.ports, e.port = q.number ∧ RightTags q vid inner e.tags) ∨ ∃ q ∈ c.l2.ports, q.In vid ∧ e.port ∈ q.mirror

/-- The packet `k` that came in through `p` was for the router, and the copy was routed to the VLAN `v`, that serves the VLAN of the packet. -/
structure RoutedCopy (c : RCfg) (p : LPort) (k : Pkt) (v : Route.Vlan) (mac : Nat) (e : Emit) : Prop where
  known : v ∈ c.vlans
  way : ∃ vid inner, Carried p k.tags vid inner ∧ ForRouter c k vid ∧ Route.Serves c.mgr v vid ∧ InVlan c v.vid inner e
  content : Rewritten k v mac e

/-- The port gets exactly one copy, rewritten for the next hop `mac` in the VLAN `v` and with the right tags. -/
def GetsRouted (q : LPort) (k : Pkt) (v : Route.Vlan) (mac : Nat) (inner : List (Nat × Nat)) (es : List Emit) : Prop :=
  ∃ e, L2.copies q es = [e] ∧ Rewritten k v mac e ∧ RightTags q v.vid inner e.tags

/-- Every member of the VLAN of the next hop gets a copy, but for the port the packet came in through. -/
def RoutedFlood (c : RCfg) (p : LPort) (k : Pkt) (v : Route.Vlan) (mac : Nat) (inner : List (Nat × Nat)) (es : List Emit) : Prop :=
  L2.copies p es = [] ∧ ∀ q ∈ c.l2.ports, q.In v.vid → q ≠ p → GetsRouted q k v mac inner es

/-- Only `q` among the members of the VLAN of the next hop gets a copy, and it does not if the packet came in there. -/
def RoutedUnicast (c : RCfg) (p q : LPort) (k : Pkt) (v : Route.Vlan) (mac : Nat) (inner : List (Nat × Nat)) (es : List Emit) : Prop :=
  (∀ r ∈ c.l2.ports, r.In v.vid → r ≠ q → L2.copies r es = []) ∧ (q = p → L2.copies p es = []) ∧ (q ≠ p → GetsRouted q k v mac inner es)

/-- The packet, of VLAN `vid`, is to be routed to the next hop `mac` in the VLAN `v`: it is for the router, `v` serves its
VLAN, its destination is in a prefix that is routed in `v` via a gateway whose MAC FAUCET knows, and the switch has no entry
for a longer prefix that contains it. -/
structure ToRoute (c : RCfg) (s : Sys) (k : Pkt) (vid : Nat) (v : Route.Vlan) (mac : Nat) : Prop where
  router : ForRouter c k vid
  vlan : v ∈ c.vlans
  serves : Route.Serves c.mgr v vid
  route : ∃ ip net gw, k.hdr fIpv4Dst = some ip ∧ net.contains 32 ip = true ∧ (s.st v.vid).routes.get? net = some gw ∧
    (∃ n, (s.st v.vid).cache.get? gw = some n ∧ n.eth = some mac) ∧
    ∀ n', Route.Installed c.mgr s.l2.sw vid n' → n'.contains 32 ip = true → n'.len ≤ net.len

/-- Only for prefixes does the switch have rules that drop packets for a while: none because a limit on the number of hosts was
reached. -/
def NoBan (c : RCfg) (sw : Switch) : Prop :=
  ∀ sl b, sw.flows sl = some b → b.hard ≠ 0 → b.inst = [] → ∃ vid n, sl = c.mgr.slot vid n

/-- In 169.254.0.0/16. -/
def LinkLocal (ip : Nat) : Prop := 0xA9FE0000 ≤ ip ∧ ip ≤ 0xA9FEFFFF

/-- The VLAN has an address of the router. -/
def HasRouter (c : RCfg) (vid : Nat) : Prop := ∃ w ∈ c.vlans, w.vid = vid ∧ w.vips ≠ []

/-- Only FAUCET gets the packet, once, with the tag of its VLAN, but for the mirrors of the port it came in through. -/
def OnlyFaucet (p : LPort) (k : Pkt) (vid : Nat) (inner : List (Nat × Nat)) (es : List Emit) : Prop :=
  ∃ es0 e, es = es0 ++ [e] ∧ (∀ x ∈ es0, x.port ∈ p.mirror) ∧ e.port = portController ∧ SameContent k e ∧ ∃ pcp, e.tags = (vid, pcp) :: inner

end Faucet.Routed
