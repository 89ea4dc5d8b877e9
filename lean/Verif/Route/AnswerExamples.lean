import Verif.Route.AnswerProps
import Verif.Route.Examples

/-!
# What the router says: the hypotheses of the theorems on a concrete network, and defects
-/

namespace Faucet.Route.Ex
open Faucet Faucet.Route

instance (w : Nat) (x : Vip) (a : Nat) : Decidable (InNet w x a) := by unfold InNet; infer_instance
instance (w : Nat) (x : Vip) (a : Nat) : Decidable (HostBits w x a) := by unfold HostBits; infer_instance
instance (w : Nat) (v : Vlan) : Decidable (AddrsOk w v) := by unfold AddrsOk; infer_instance

/-- An IPv6 VLAN: fe80::1/64 and fd00::1/64. -/
def v6 : Vlan := { vid := 300, mac := 0xc, vips := [⟨0xfe800000000000000000000000000001, 64⟩, ⟨0xfd000000000000000000000000000001, 64⟩] }

def mgr6 : Mgr :=
  { width := 128, ethType := 0x86dd, ipDst := 27, linkLocal := fun a => a / 2 ^ 118 == 0x3fa, fib := ⟨5, 1⟩, vip := ⟨6, 1⟩, toL2 := 7 }

/-- Port 1 is untagged, port 2 tagged, and both are up; port 3 is down. -/
def memX : Members := { tagged := [2, 3], untagged := [1], running := fun p => p != 3 }

theorem okA : AddrsOk 32 vA := by decide
theorem ok6 : AddrsOk 128 v6 := by decide

theorem apartA : Apart 32 vA := by
  intro x hx y hy a _ _ _
  simp only [vA, List.mem_singleton] at hx hy
  rw [hx, hy]

theorem apart6 : Apart 128 v6 := by
  intro x hx y hy a _ h1 h2
  simp only [v6, List.mem_cons, List.not_mem_nil, or_false] at hx hy
  rcases hx with rfl | rfl <;> rcases hy with rfl | rfl
  · rfl
  · unfold InNet at h1 h2
    rw [h1] at h2
    exact absurd h2 (by decide)
  · unfold InNet at h1 h2
    rw [h1] at h2
    exact absurd h2 (by decide)
  · rfl

/-- A host, 10.0.1.1, asks who has the router's address, 10.0.1.254. -/
def arpX : PktIn := { vlan := vA, port := 2, ethSrc := 0x77, ethDst := bcastMac, got := 64, total := 64, body := .arp 1 0x0a000101 0x0a0001fe }

example : (mgrX.rcv envX stX 0 memX arpX).outs = [⟨2, some 100, 0xa, 0x77, .arpReply 0xa 0x0a0001fe 0x77 0x0a000101⟩] :=
  (arp_answered_partial mgrX envX stX 0 memX arpX rfl rfl okA apartA (by decide) rfl (Or.inl rfl) rfl (by decide)).1
    ⟨⟨_, List.mem_singleton.2 rfl, rfl⟩, ⟨_, List.mem_singleton.2 rfl, by decide, by decide⟩⟩

/-- It asks for another host: the router says nothing. -/
example : (mgrX.rcv envX stX 0 memX { arpX with body := .arp 1 0x0a000101 0x0a000102 }).outs = [] := by decide +kernel

example : (((mgrX.rcv envX stX 0 memX arpX).st) 100).eth 0x0a000101 = some 0x77 :=
  asker_known mgrX envX stX 0 memX arpX rfl rfl okA apartA (by decide) rfl (Or.inl rfl) rfl (by decide) rfl
    ⟨_, List.mem_singleton.2 rfl, rfl⟩ ⟨_, List.mem_singleton.2 rfl, by decide, by decide⟩

/-- It pings the router. -/
def pingX : PktIn :=
  { vlan := vA, port := 1, ethSrc := 0x77, ethDst := 0xa, got := 102, total := 102,
    body := .ip4 0x0a000101 0x0a0001fe 1 (some (.echo 7 1 [1, 2, 3])) [] }

example : (mgrX.rcv envX stX 0 memX pingX).outs = [⟨1, none, 0xa, 0x77, .echo4 0x0a0001fe 0x0a000101 7 1 [1, 2, 3]⟩] :=
  (ping_answered_partial mgrX envX stX 0 memX pingX rfl rfl okA apartA (by decide) rfl rfl rfl (by decide) (by decide)).1
    ⟨⟨_, List.mem_singleton.2 rfl, rfl⟩, ⟨_, List.mem_singleton.2 rfl, by decide, by decide⟩⟩

/-- A packet of the host for 8.8.8.8 runs out of hops. -/
def expiredX : PktIn :=
  { vlan := vA, port := 1, ethSrc := 0x77, ethDst := 0xa, reason := .invalidTtl, got := 78, total := 78,
    body := .ip4 0x0a000101 0x08080808 17 none (List.range 60) }

example : (mgrX.rcv envX stX 0 memX expiredX).outs = [⟨1, none, 0xa, 0x77, .exceeded4 0x0a0001fe 0x0a000101 (List.range 28)⟩] := by
  have h := (expired_reported_partial mgrX envX stX 0 memX expiredX rfl rfl okA apartA (by decide) rfl rfl (by decide) rfl).1
    ⟨0x0a0001fe, 24⟩ (List.mem_singleton.2 rfl) (by decide) (by decide)
  rw [h]
  decide

/-- A host, fe80::9, asks for the router's link-local address. -/
def solicitX : PktIn :=
  { vlan := v6, port := 2, ethSrc := 0x99, ethDst := 0x3333ff000001, got := 90, total := 90,
    body := .ip6 0xfe800000000000000000000000000009 0xff0200000000000000000001ff000001 58 255 false
      (some (.solicit 0xfe800000000000000000000000000001)) [] }

example : (mgr6.rcv envX stX 0 memX solicitX).outs =
    [⟨2, some 300, 0xc, 0x99, .ndAdvert 0xfe800000000000000000000000000001 0xfe800000000000000000000000000009 255
      0xfe800000000000000000000000000001 0xc⟩] :=
  (nd_answered_partial mgr6 envX stX 0 memX solicitX rfl rfl ok6 apart6 (by decide) rfl (Or.inr (by decide)) rfl (by decide)).1
    ⟨⟨_, List.mem_cons_self, rfl⟩, ⟨_, List.mem_cons_self, by decide, by decide⟩⟩

/-- It solicits routers: it hears of fd00::/64. -/
def rsX : PktIn :=
  { vlan := v6, port := 1, ethSrc := 0x99, ethDst := 0x333300000002, got := 66, total := 66,
    body := .ip6 0xfe800000000000000000000000000009 0xff020000000000000000000000000002 58 255 false (some .routerSolicit) [] }

example : ∃ ns, (∀ n, n ∈ ns ↔ ∃ y ∈ v6.vips, mgr6.linkLocal y.ip = false ∧ n = y.net 128) ∧
    (mgr6.rcv envX stX 0 memX rsX).outs =
      [⟨1, none, 0xc, 0x99, .routerAdvert 0xfe800000000000000000000000000001 0xfe800000000000000000000000000009 255 ns 0xc⟩] :=
  solicitation_answered_partial mgr6 envX stX 0 memX rsX rfl rfl ok6 apart6 (by decide) rfl (Or.inr (by decide)) rfl (by decide)
    (x := ⟨0xfe800000000000000000000000000001, 64⟩) List.mem_cons_self (by decide) (by decide) (by decide)

/-- It pings the router over IPv6. -/
def ping6X (n : Nat) : PktIn :=
  { vlan := v6, port := 1, ethSrc := 0x99, ethDst := 0xc, got := 66 + n, total := 66 + n,
    body := .ip6 0xfe800000000000000000000000000009 0xfe800000000000000000000000000001 58 64 false
      (some (.echo 7 1 (List.replicate n 0x61))) [] }

example : (mgr6.rcv envX stX 0 memX (ping6X 56)).outs =
    [⟨1, none, 0xc, 0x99, .echo6 0xfe800000000000000000000000000001 0xfe800000000000000000000000000009 64 7 1 (List.replicate 56 0x61)⟩] :=
  (ping6_answered_partial mgr6 envX stX 0 memX (ping6X 56) rfl rfl ok6 apart6 (by decide) rfl rfl rfl (by decide) (by decide)).1
    ⟨⟨_, List.mem_cons_self, rfl⟩, ⟨_, List.mem_cons_self, by decide, by decide⟩⟩

/-- A packet of the IPv6 host runs out of hops. -/
def expired6X : PktIn :=
  { vlan := v6, port := 1, ethSrc := 0x99, ethDst := 0xc, reason := .invalidTtl, got := 98, total := 98,
    body := .ip6 0xfd000000000000000000000000000009 0x20010db8000000000000000000000001 17 0 false none (List.range 80) }

example : (mgr6.rcv envX stX 0 memX expired6X).outs =
    [⟨1, none, 0xc, 0x99, .exceeded6 0xfd000000000000000000000000000001 0xfd000000000000000000000000000009
      ([0, 0, 0, 0] ++ (List.range 80).take 72)⟩] :=
  (expired6_reported_partial mgr6 envX stX 0 memX expired6X rfl rfl ok6 apart6 (by decide) rfl rfl rfl).1
    ⟨0xfd000000000000000000000000000001, 64⟩ (by decide) (by decide) (by decide)

/-- The answer to the request, heard by the router of another VLAN. -/
example : (mgrX.rcv envX stX 0 memX { arpX with vlan := vB, ethDst := 0xb, body := .arp 2 0x0a0001fe 0x0a000101 }).outs = [] :=
  answers_unanswered_partial mgrX envX stX 0 memX _ _ (.arpReply 0xa 0x0a0001fe 0x77 0x0a000101) (by decide)

example : ¬Asks { arpX with body := .arp 2 0x0a0001fe 0x0a000101 } := by
  intro h
  cases h with
  | arp h => cases h
  | ping h => cases h
  | solicit h => cases h
  | routerSolicit h => cases h
  | ping6 h => cases h
  | expired h => cases h

/-- One link-local VIP: one advertisement per port that is up. -/
example : copiesTo 2 (mgr6.advertise v6 memX) = 1 ∧ copiesTo 1 (mgr6.advertise v6 memX) = 1 ∧ copiesTo 3 (mgr6.advertise v6 memX) = 0 ∧
    copiesTo 4 (mgr6.advertise v6 memX) = 0 := by
  have h : ∀ q, copiesTo q (mgr6.advertise v6 memX) = _ := fun q =>
    advertised_once mgr6 v6 memX (by decide) (by decide) (by decide) q
  refine ⟨?_, ?_, ?_, ?_⟩ <;> rw [h] <;> decide

/-! ## Defects -/

/-- **Pings of IPv6 with more than 88 bytes of data come back cut short**, although the switch sends the controller up to 128
(valve_route.py 1330 against valve_packet.py 55-57): the router parses 96 bytes after the IPv6 header.  The sender sees a reply
whose data do not match. -/
theorem ping6_cut_defect : (mgr6.rcv envX stX 0 memX (ping6X 100)).outs.map (·.said) =
    [.echo6 0xfe800000000000000000000000000001 0xfe800000000000000000000000000009 64 7 1 (List.replicate 88 0x61)] := by
  decide +kernel

/-- **Pings with more than 128 bytes of data are not answered at all**: the packet is cut to 174 bytes and then counts as
incomplete. -/
theorem large_ping_unanswered_defect (n : Nat) (h : 174 < n) :
    (mgrX.rcv envX stX 0 memX { pingX with got := n, total := n }).outs = [] := by
  rw [rcv_ip4 mgrX envX stX 0 memX _ rfl, if_neg]
  rintro ⟨_, _, _, hc⟩
  have : min n 174 = n := by simpa [PktIn.complete, pingX] using hc
  omega

/-- **Nor are large packets that run out of hops reported**: `traceroute` with large packets does not see the router. -/
theorem large_expired_unreported_defect (n : Nat) (h : 174 < n) :
    (mgrX.rcv envX stX 0 memX { expiredX with got := n, total := n }).outs = [] := by
  rw [rcv_ip4 mgrX envX stX 0 memX _ rfl, if_neg]
  rintro ⟨_, _, _, hc⟩
  have : min n 174 = n := by simpa [PktIn.complete, expiredX] using hc
  omega

/-- **Address probes are not answered**: a host that means to use the router's own address and asks first whether anybody has
it (RFC 5227, sender address 0.0.0.0; RFC 4862, from `::`) hears nothing, so the conflict goes unnoticed. -/
theorem probe_unanswered_defect :
    (mgrX.rcv envX stX 0 memX { arpX with body := .arp 1 0 0x0a0001fe }).outs = [] ∧
    (mgr6.rcv envX stX 0 memX { solicitX with
      body := .ip6 0 0xff0200000000000000000001ff000001 58 255 false (some (.solicit 0xfe800000000000000000000000000001)) [] }).outs = [] := by decide +kernel

/-- 10.0.1.254/24 and 10.0.1.253/24 in one VLAN. -/
def vTwo : Vlan := { vA with vips := [⟨0x0a0001fe, 24⟩, ⟨0x0a0001fd, 24⟩] }

/-- **Of two addresses of the router in one network only one answers**, the one that comes first in a set: requests for the
other and pings of it are ignored. -/
theorem second_address_silent_defect :
    Owns vTwo 0x0a0001fd ∧
    (mgrX.rcv envX stX 0 memX { arpX with vlan := vTwo, body := .arp 1 0x0a000101 0x0a0001fd }).outs = [] ∧
    (mgrX.rcv envX stX 0 memX { pingX with vlan := vTwo, body := .ip4 0x0a000101 0x0a0001fd 1 (some (.echo 7 1 [])) [] }).outs = [] := by
  refine ⟨⟨⟨0x0a0001fd, 24⟩, by decide, rfl⟩, ?_, ?_⟩ <;> decide +kernel

/-- **An error message that runs out of hops is itself reported with an error message**, which RFC 1122 (3.2.2) forbids: so may
be the report in turn. -/
theorem error_about_error_defect :
    (mgrX.rcv envX stX 0 memX { expiredX with body := .ip4 0x0a000101 0x08080808 1 (some (.other 11)) [] }).outs.length = 1 := by
  decide +kernel

/-- **The report of a packet with IP options does not identify it**: 28 bytes are quoted even if the header alone is longer
(60 bytes here), so no byte of what follows the header is quoted, let alone the 8 that RFC 792 asks for. -/
theorem options_quote_defect :
    (mgrX.rcv envX stX 0 memX { expiredX with
      body := .ip4 0x0a000101 0x08080808 17 none (List.replicate 60 0 ++ List.replicate 8 1) }).outs.map (·.said) =
      [.exceeded4 0x0a0001fe 0x0a000101 (List.replicate 28 0)] := by decide +kernel

/-- **A host cannot ping the router's address in another VLAN**, though packets for other hosts there are routed. -/
theorem far_address_silent_defect :
    (mgrX.rcv envX stX 0 memX { pingX with body := .ip4 0x0a000101 0x0a0002fe 1 (some (.echo 7 1 [])) [] }).outs = [] := by
  decide +kernel

end Faucet.Route.Ex
