import Verif.Features.Model

/-!
# What it means that a rule fits its table, and that a switch accepts it

`Accepts` is from OpenFlow 1.3.5, 7.3.5.5.2 (table features) and 7.2.3.8 (prerequisites): what a switch may insist on that
keeps to the table features it was given.
-/

namespace Faucet.Features
open Faucet.OF

/-- The flow mod puts a rule into a table, or changes one. -/
def Puts (f : FlowMod) : Prop := f.cmd = .add ∨ f.cmd = .modifyStrict

/-- The actions of the rule. -/
def Acts (f : FlowMod) (a : Action) : Prop := ∃ as, Inst.apply as ∈ f.inst ∧ a ∈ as

/-- **The rule fits the declaration of its table.** -/
structure Fits (d : Decl) (f : FlowMod) : Prop where
  /-- only fields of the table are matched -/
  declared : ∀ i ∈ f.mtch.items, ∃ m, (i.field, m) ∈ d.matchTypes
  /-- only fields are masked that may be -/
  masked : Puts f → ∀ i ∈ f.mtch.items, i.mask ≠ none → (i.field, true) ∈ d.matchTypes
  /-- in an exact match table all fields are matched, or none -/
  exact : Puts f → d.exact = true → f.mtch.items ≠ [] → ∀ e ∈ d.matchTypes, ∃ i ∈ f.mtch.items, i.field = e.1
  /-- the priority 0 is for the rule that matches everything -/
  default : Puts f → f.priority = 0 → f.mtch.items = []
  /-- only fields are set that may be -/
  sets : ∀ k v, Acts f (.setField k v) → k ∈ d.setFields
  /-- no field is matched twice -/
  once : (f.mtch.items.map (·.field)).Nodup

/-- A match has the item with this field and value, not masked. -/
def Has (is : List MatchItem) (k v : Nat) : Prop := ⟨k, v, none⟩ ∈ is

/-- The prerequisites of match fields: an IPv4 address needs the EtherType of IPv4, and so on. -/
structure WellFormed (is : List MatchItem) : Prop where
  ipv4 : ∀ i ∈ is, i.field = fIpv4Dst → Has is fEthType 0x0800
  ipv6 : ∀ i ∈ is, i.field = fIpv6Dst → Has is fEthType 0x86DD
  arp : ∀ i ∈ is, i.field = fArpTpa → Has is fEthType 0x0806
  proto : ∀ i ∈ is, i.field = fIpProto → Has is fEthType 0x0800 ∨ Has is fEthType 0x86DD
  icmp : ∀ i ∈ is, i.field = fIcmpv6Type → Has is fIpProto 58
  pcp : ∀ i ∈ is, i.field = fVlanPcp → ∃ j ∈ is, j.field = fVlanVid ∧ j.value.testBit 12 = true

def kindOfAct : Action → ActKind
  | .output _ => .output
  | .group _ => .group
  | .pushVlan _ => .pushVlan
  | .popVlan => .popVlan
  | .setField _ _ => .setField
  | .decTtl => .decTtl
  | .ct _ => .other
  | .other _ => .other

def kindOfInst : Inst → InstKind
  | .apply _ => .apply
  | .goto _ => .goto
  | .meter _ => .meter
  | .writeMetadata _ _ => .writeMetadata

/-- All bits of `a` are bits of `b`. -/
def Bits (a b : Nat) : Prop := ∀ n, a.testBit n = true → b.testBit n = true

/-- The rule is the one for packets that no other rule matches. -/
def IsMiss (f : FlowMod) : Prop := f.priority = 0 ∧ f.mtch.items = []

/-- **A switch with these features accepts the rule.** -/
structure Accepts (t : Features) (f : FlowMod) : Prop where
  fields : ∀ i ∈ f.mtch.items, ∃ e ∈ t.fields, e.1 = i.field ∧ (i.mask ≠ none → e.2 = true)
  /-- fields may be left out if they are wildcards (not for the miss rule, which always is possible) -/
  omitted : ¬ IsMiss f → ∀ e ∈ t.fields, (∃ i ∈ f.mtch.items, i.field = e.1) ∨ ∃ w ∈ t.wildcards, w.1 = e.1
  metadata : ∀ i ∈ f.mtch.items, i.field = fMetadata → ∀ m, i.mask = some m → Bits m t.metadataMatch
  insts : ¬ IsMiss f → ∀ i ∈ f.inst, kindOfInst i ∈ t.insts
  next : ¬ IsMiss f → ∀ n, .goto n ∈ f.inst → n ∈ t.next
  missInsts : IsMiss f → ∀ i ∈ f.inst, kindOfInst i ∈ t.missInsts
  missNext : IsMiss f → ∀ n, .goto n ∈ f.inst → n ∈ t.missNext
  actions : ∀ a, Acts f a → kindOfAct a ∈ t.actions
  sets : ∀ k v, Acts f (.setField k v) → k ∈ t.setFields
  writes : ∀ v m, .writeMetadata v m ∈ f.inst → Bits m t.metadataWrite
  prereq : WellFormed f.mtch.items
  once : (f.mtch.items.map (·.field)).Nodup

end Faucet.Features
