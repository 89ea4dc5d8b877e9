import Verif.AclSw.Model

/-!
# ACLs of ports on a switch: specification (C71)

In terms of the configuration, what the switch reported, the packet that comes in and the copies that go out.
-/

namespace Faucet.AclSw
open Faucet.OF

/-- What the ACLs of port `n` say about the packet `k`: the copies that they send themselves, and the packet that is switched, if any.
* Without ACLs, the packet is switched as it is.
* Otherwise the first rule that the packet meets decides, in the order of the ACLs and of the rules in them. The copies are
  one to the port that the rule mirrors to, and those of its output. If it says that packets are allowed, the packet is
  switched, as the output leaves it.
* A packet that meets no rule is dropped. -/
inductive Verdict (enc : Acl.Enc) (acls : List Acl.Acl) (n : Nat) (k : Pkt) : List Emit → Option Pkt → Prop
  | noAcls : acls = [] → Verdict enc acls n k [] (some k)
  | allow {r a} : acls ≠ [] → Acl.FirstMatch enc (some n) none (Acl.allRules acls) r k → r.actions = some a → Acl.SaysAllow a →
      Verdict enc acls n k (a.mirror.toList.flatMap (emitPort k) ++ (Acl.outEffect a.output k).1) (some (Acl.outEffect a.output k).2)
  | stop {r a} : acls ≠ [] → Acl.FirstMatch enc (some n) none (Acl.allRules acls) r k → r.actions = some a → ¬ Acl.SaysAllow a →
      Verdict enc acls n k (a.mirror.toList.flatMap (emitPort k) ++ (Acl.outEffect a.output k).1) none
  | noActions {r} : acls ≠ [] → Acl.FirstMatch enc (some n) none (Acl.allRules acls) r k → r.actions = none → Verdict enc acls n k [] none
  | noRule : acls ≠ [] → (∀ r ∈ Acl.allRules acls, ¬ Acl.Meets enc (some n) none r k) → Verdict enc acls n k [] none

/-- The ports that an output names. -/
def outPorts : Acl.Output → List Nat
  | .dict d => Acl.outPorts d
  | .ordered l => l.flatMap (fun a => match a with | .port n => [n] | .ports ns => ns | _ => [])

/-- The header fields that an output sets. -/
def outSets : Acl.Output → List Nat
  | .dict d => d.setFields.map (·.1)
  | .ordered l => l.flatMap (fun a => match a with | .setFields fs => fs.map (·.1) | _ => [])

/-- The rules that the theorems are about: without failover group, tunnel, connection tracking, `goto` and `force_port_vlan`; nothing is
sent to FAUCET; the port that a packet came in through is not a field that can be set. -/
structure RuleOk (a : Acl.Actions) : Prop where
  direct : Acl.Direct a
  noGoto : Acl.gotos a.output = []
  noForce : a.force ≠ some 1
  mirror : a.mirror ≠ some portController
  ports : ∀ o, a.output = some o → portController ∉ outPorts o
  sets : ∀ o, a.output = some o → fInPort ∉ outSets o

/-- The ACLs that the theorems are about. -/
structure AclsGood (acls : List Acl.Acl) : Prop where
  ok : acls ≠ [] → Acl.AclsOk acls
  rules : ∀ r ∈ Acl.allRules acls, ∀ a, r.actions = some a → RuleOk a

/-- The packets that the theorems are about: they came in through some port, VIDs have 12 bits, and what the ACLs let
through is no tagged control frame (see `Faucet.L2.Plain`). -/
structure Sound (c : SCfg) (enc : Acl.Enc) (cfgs : AclsOf → Prop) (k : Pkt) : Prop where
  port : ∃ n, k.hdr fInPort = some n
  wire : L2.Wire k
  plain : ∀ acls n cs k', cfgs acls → k.hdr fInPort = some n → Verdict enc (acls n) n k cs (some k') → L2.Plain c.l2 k'

/-- What the specification of switching (C62, C63) says of the packet `k` that is switched after it came in through `p`, and of
its copies. -/
structure Switched (c : L2.Cfg) (s : L2.Sys) (p : L2.LPort) (k : Pkt) (es : List Emit) : Prop where
  /-- copies stay in the VLAN -/
  isolated : ∀ e ∈ es, L2.SameContent k e ∧ L2.Allowed c p k e
  /-- an ordinary packet is flooded, or goes to the one port that the destination is on -/
  delivered : L2.NoBan s.sw → ∀ vid inner src dst, L2.Ordinary c p k vid inner src dst →
    L2.Flooded c p k vid inner es ∨
    ∃ q ∈ c.ports, q.In vid ∧ s.Heard dst ∧ dst.testBit 40 = false ∧ L2.Unicast c p q k vid inner es ∧ ∀ r, s.Knows vid dst r → r.number = q.number
  /-- FAUCET is told of sources it has not heard of -/
  told : L2.NoBan s.sw → ∀ vid inner src dst, L2.Ordinary c p k vid inner src dst → ¬ s.Heard src →
    ∃ e ∈ es, e.port = portController ∧ (L2.Emit.toPacketIn e).src = src

end Faucet.AclSw
