import Verif.L2.Spec
import Verif.Learn.Spec

/-!
# One standalone switch: specification of delivery (C63)

In terms of the configuration, what the switch reported, the packet that comes in and the copies that go out.
-/

namespace Faucet.L2
open Faucet.OF

/-- The ports that the switch last reported to be up, after an event. -/
def Ev.upAfter (ev : Ev) (u : Nat → Bool) : Nat → Bool :=
  match ev with
  | .connect _ up _ => fun i => up.contains i
  | .portUp _ n _ => fun i => i == n || u i
  | .portDown _ n _ => fun i => i != n && u i
  | _ => u

/-- `Reach`, with the ports that the switch last reported to be up. -/
inductive Run (c : Cfg) (ok : Pkt → Prop) : Sys → (Nat → Bool) → Prop
  | start {sw0 : Switch} {now up lag ms ctl sh bar out} : (∀ l, (sh l).Perm l) →
      c.react Ctl.init (.connect now up lag) = some (ms, ctl) → FlowReorder.reorder sh bar ms = some out →
      Run c ok ⟨ctl, Switch.execAll sw0 out, fun _ => False⟩ (fun i => up.contains i)
  | event {s u ev ms ctl sh bar out} : Run c ok s u → (∀ l, (sh l).Perm l) → (∀ now k, ev = .packetIn now k → s.seen k) →
      c.react s.ctl ev = some (ms, ctl) → FlowReorder.reorder sh bar ms = some out →
      Run c ok ⟨ctl, s.sw.execAll out, s.seen⟩ (ev.upAfter u)
  | packet {s u k es} : Run c ok s u → ok k → Proc s.sw 0 k es →
      Run c ok ⟨s.ctl, s.sw, fun x => s.seen x ∨ ∃ e ∈ es, e.port = portController ∧ x = Emit.toPacketIn e⟩ u
  | timeout {s u sl b} : Run c ok s u → s.sw.flows sl = some b → b.hard ≠ 0 ∨ b.idle ≠ 0 →
      Run c ok ⟨s.ctl, ⟨fun x => if x = sl then none else s.sw.flows x, s.sw.groups, s.sw.meters⟩, s.seen⟩ u

/-- The runs are those of `Reach`. -/
theorem Run.reach {c : Cfg} {ok : Pkt → Prop} {s : Sys} {u : Nat → Bool} (h : Run c ok s u) : Reach c ok s := by
  induction h with
  | start h1 h2 h3 => exact .start h1 h2 h3
  | event _ h1 h2 h3 h4 ih => exact .event ih h1 h2 h3 h4
  | packet _ h1 h2 ih => exact .packet ih h1 h2
  | timeout _ h1 h2 ih => exact .timeout ih h1 h2

theorem Reach.run {c : Cfg} {ok : Pkt → Prop} {s : Sys} (h : Reach c ok s) : ∃ u, Run c ok s u := by
  induction h with
  | start h1 h2 h3 => exact ⟨_, .start h1 h2 h3⟩
  | event _ h1 h2 h3 h4 ih => obtain ⟨u, hu⟩ := ih; exact ⟨_, .event hu h1 h2 h3 h4⟩
  | packet _ h1 h2 ih => obtain ⟨u, hu⟩ := ih; exact ⟨_, .packet hu h1 h2⟩
  | timeout _ h1 h2 ih => obtain ⟨u, hu⟩ := ih; exact ⟨_, .timeout hu h1 h2⟩

/-- The configurations of C63: no egress pipeline and no group table; ports without hairpin, permanent learning, loop
protection, restricted broadcast and LACP; unknown unicast is flooded. Mirrors, flooding per port, restricted broadcast rows,
the classification table, idle timeouts and host limits may be configured. -/
structure Cfg.Basic (c : Cfg) : Prop where
  noEgress : c.egressPipeline = false
  noGroups : c.groupTable = false
  ban : c.learnBan ≠ 0
  hairpin : ∀ p ∈ c.ports, p.hairpin = false ∧ p.hairpinUnicast = false
  permanent : ∀ p ∈ c.ports, p.permanentLearn = false
  loop : ∀ p ∈ c.ports, p.loopProtect = false ∧ p.loopProtectExternal = false
  restricted : ∀ p ∈ c.ports, p.restricted = false
  portUnicast : ∀ p ∈ c.ports, p.unicastFlood = true
  lacp : ∀ p ∈ c.ports, p.lacp = 0
  vlanUnicast : ∀ v ∈ c.vlans, v.unicastFlood = true

/-- No limit on the number of hosts of a port or VLAN is configured. -/
def Cfg.Unlimited (c : Cfg) : Prop := (∀ p ∈ c.ports, p.maxHosts = 0) ∧ ∀ v ∈ c.vlans, v.maxHosts = 0

/-- The switch has no rule that drops packets for a while, because a limit on the number of hosts was reached. -/
def NoBan (sw : Switch) : Prop := ∀ sl b, sw.flows sl = some b → b.hard ≠ 0 → b.inst ≠ []

/-- A packet of VLAN `vid` that came in through `p`, from `src` to `dst`, and that is not one that switches must not forward:
not from the broadcast address or that of a gateway, not for a reserved destination, not an Ethernet loopback test. -/
structure Ordinary (c : Cfg) (p : LPort) (k : Pkt) (vid : Nat) (inner : List (Nat × Nat)) (src dst : Nat) : Prop where
  port : k.hdr fInPort = some p.number
  from_ : k.hdr fEthSrc = some src
  to_ : k.hdr fEthDst = some dst
  notBroadcast : src ≠ 0xFFFFFFFFFFFF
  notGateway : ∀ v ∈ c.vlans, src ≠ v.faucetMac
  mac : dst < 2 ^ 48
  notReserved : dst ≠ 0x01000CCCCCCC ∧ dst ≠ 0x01000CCCCCCD ∧ ¬ (0x0180C2000000 ≤ dst ∧ dst ≤ 0x0180C200000F)
  type : k.hdr fEthType ≠ some 0x9000
  wire : Wire k
  carried : Carried p k.tags vid inner

/-- The port takes packets: it is enabled, not output-only, and the switch last reported it up. -/
def Takes (u : Nat → Bool) (p : LPort) : Prop := p.enabled = true ∧ p.outputOnly = false ∧ u p.number = true

/-- The copies that leave through a port. -/
def copies (q : LPort) (es : List Emit) : List Emit := es.filter (fun e => e.port == q.number)

/-- The port gets exactly one copy, with the content of the packet and the right tags. -/
def GetsOne (q : LPort) (k : Pkt) (vid : Nat) (inner : List (Nat × Nat)) (es : List Emit) : Prop :=
  ∃ e, copies q es = [e] ∧ SameContent k e ∧ RightTags q vid inner e.tags

/-- Every other member of the VLAN gets a copy. -/
def Flooded (c : Cfg) (p : LPort) (k : Pkt) (vid : Nat) (inner : List (Nat × Nat)) (es : List Emit) : Prop :=
  copies p es = [] ∧ ∀ q ∈ c.ports, q.In vid → q ≠ p → GetsOne q k vid inner es

/-- Only `q` among the members of the VLAN gets a copy; none goes back. -/
def Unicast (c : Cfg) (p q : LPort) (k : Pkt) (vid : Nat) (inner : List (Nat × Nat)) (es : List Emit) : Prop :=
  (∀ r ∈ c.ports, r.In vid → r ≠ q → copies r es = []) ∧ (q = p → copies p es = []) ∧ (q ≠ p → GetsOne q k vid inner es)

/-- FAUCET was told of a packet from the address. -/
def Sys.Heard (s : Sys) (m : Nat) : Prop := ∃ x, s.seen x ∧ x.src = m

/-- FAUCET knows the host on the port. -/
def Sys.Knows (s : Sys) (vid m : Nat) (q : LPort) : Prop := ∃ e, Learn.host s.ctl.learn vid m = some e ∧ e.port.number = q.number

end Faucet.L2
