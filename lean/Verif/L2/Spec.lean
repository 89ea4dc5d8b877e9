import Verif.L2.Model

/-!
# One standalone switch: specification of VLAN isolation (C62)

In terms of the configuration, the packet that comes in and the copies that go out. Nothing here mentions tables or rules.
-/

namespace Faucet.L2
open Faucet.OF

/-- The port is in the VLAN. -/
def LPort.In (p : LPort) (vid : Nat) : Prop := p.native = some vid ∨ vid ∈ p.tagged

/-- The number of an interface: that of a physical port or `OFPP_LOCAL`, `valve_of.ignore_port`, `faucet/valve_of.py` 258-269.
That function lets `OFPP_IN_PORT` through too, see `Faucet.Valid.Ex.in_port_interface_defect`. -/
def RealPort (n : Nat) : Prop := n ≤ 0xF0000000 ∨ n = 0xfffffffe

instance (n : Nat) : Decidable (RealPort n) := by unfold RealPort; infer_instance

/-- What the configuration parser guarantees: port numbers are unique and not reserved (`faucet/port.py` 322-330), VIDs are
unique, less than 4096 (`faucet/vlan.py` 209-215) and known, a port's native VLAN is not among its tagged ones
(`faucet/port.py` 484-489), and ports that members of VLANs are mirrored to are in no VLAN (`faucet/dp.py` 1017-1037,
`faucet/port.py` 331-346). `Faucet.Valid.accepted_wf_partial` says which accepted configurations are well-formed. -/
structure Cfg.WF (c : Cfg) : Prop where
  nodup : (c.ports.map (·.number)).Nodup
  vnodup : (c.vlans.map (·.vid)).Nodup
  real : ∀ p ∈ c.ports, RealPort p.number
  vid : ∀ v ∈ c.vlans, v.vid < 4096
  known : ∀ p ∈ c.ports, ∀ vid, p.native = some vid ∨ vid ∈ p.tagged → ∃ v ∈ c.vlans, v.vid = vid
  once : ∀ p ∈ c.ports, ∀ vid, p.native = some vid → vid ∉ p.tagged
  mirrors : ∀ p ∈ c.ports, ∀ vid, p.In vid → ∀ m ∈ p.mirror,
    RealPort m ∧ ∀ q ∈ c.ports, q.number = m → q.native = none ∧ q.tagged = []

theorem mirrors_all {c : Cfg} (h : ∀ p ∈ c.ports, ∀ m ∈ p.mirror, RealPort m ∧ ∀ q ∈ c.ports, q.number = m → q.native = none ∧ q.tagged = []) :
    ∀ p ∈ c.ports, ∀ vid, p.In vid → ∀ m ∈ p.mirror, RealPort m ∧ ∀ q ∈ c.ports, q.number = m → q.native = none ∧ q.tagged = [] :=
  fun p hp _ _ => h p hp

/-- A packet with these tags that comes in through the port belongs to VLAN `vid`; `inner` are the tags below that of the
VLAN, which are not FAUCET's business. -/
inductive Carried (p : LPort) : List (Nat × Nat) → Nat → List (Nat × Nat) → Prop
  | untagged {vid} : p.native = some vid → Carried p [] vid []
  | tagged {vid pcp inner} : vid ∈ p.tagged → Carried p ((vid, pcp) :: inner) vid inner

/-- The tags of a copy that leaves through a member of the VLAN. -/
def RightTags (q : LPort) (vid : Nat) (inner tags : List (Nat × Nat)) : Prop :=
  (q.native = some vid ∧ tags = inner) ∨ (vid ∈ q.tagged ∧ ∃ pcp, tags = (vid, pcp) :: inner)

/-- An LACP frame on a port with LACP, or an LLDP frame on a port that receives LLDP: FAUCET takes it. -/
def ControlFrame (p : LPort) (k : Pkt) : Prop :=
  (p.lacp ≠ 0 ∧ k.hdr fEthDst = some 0x0180C2000002 ∧ k.hdr fEthType = some 0x8809) ∨
  (p.receiveLldp = true ∧ (∃ d, k.hdr fEthDst = some d ∧ d &&& 0xFFFFFFFFFFF0 = 0x0180C2000000) ∧ k.hdr fEthType = some 0x88CC)

/-- What may happen to a copy of the packet `k` that came in through `p`. -/
inductive Allowed (c : Cfg) (p : LPort) (k : Pkt) (e : Emit) : Prop
  /-- FAUCET takes control frames, as they are -/
  | control : e.port = portController → ControlFrame p k → e.tags = k.tags → Allowed c p k e
  /-- FAUCET sees packets of the VLANs of the port, tagged with the VLAN -/
  | controller {vid inner pcp} : e.port = portController → Carried p k.tags vid inner → e.tags = (vid, pcp) :: inner → Allowed c p k e
  /-- mirrors of the port itself see packets of its VLANs, and mirrors of members see packets of the VLAN -/
  | mirror {vid inner q} : Carried p k.tags vid inner → q ∈ c.ports → q.In vid → e.port ∈ q.mirror → Allowed c p k e
  /-- members of the VLAN, with or without the tag as configured -/
  | member {vid inner q} : Carried p k.tags vid inner → q ∈ c.ports → e.port = q.number → RightTags q vid inner e.tags → Allowed c p k e

/-- The content of a copy is that of the packet (metadata is not part of a packet on the wire). -/
def SameContent (k : Pkt) (e : Emit) : Prop := ∀ f, f ≠ fMetadata → e.hdr f = k.hdr f

/-- VLAN ids on the wire have 12 bits. -/
def Wire (k : Pkt) : Prop := ∀ t ∈ k.tags, t.1 < 4096

/-- No tagged LACP or LLDP frame for FAUCET comes in: on these isolation can fail, see `tagged_lacp_breaks_isolation_defect`. -/
def Plain (c : Cfg) (k : Pkt) : Prop :=
  ∀ p ∈ c.ports, k.hdr fInPort = some p.number → ControlFrame p k → k.tags = []

end Faucet.L2
