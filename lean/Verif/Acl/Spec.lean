import Verif.Acl.Model
import Verif.OpenFlow.Datapath

/-!
# What an ACL rule means

Independent of how rules are turned into flows.
-/

namespace Faucet.Acl
open Faucet.OF

/-- The packet has, in field `f`, what the configured value says (possibly under a mask). -/
def FieldIs (enc : Enc) (p : Pkt) (f : Nat) (v : Val) : Prop :=
  ∃ x mask w, enc f v = some (x, mask) ∧ p.field f = some w ∧ maskEq mask w x = true

/-- The packet meets the match of a rule that is applied to a port and/or a VLAN: it came in through the port, its VLAN is
the VLAN, and it has the configured value in every field of the rule, where what the rule itself says about port or
VLAN does not count if it is applied to one. -/
structure Meets (enc : Enc) (port vlan : Option Nat) (r : Rule) (p : Pkt) : Prop where
  inPort : ∀ n, port = some n → p.hdr fInPort = some n
  inVlan : ∀ v, vlan = some v → p.field fVlanVid = some (vidPresent v)
  fields : ∀ k v f, (k, v) ∈ r.fields → keyField k = some f → (f = fInPort → port = none) →
    (f = fVlanVid → vlan = none) → FieldIs enc p f v

/-- No field is given twice (under an old and a new name). -/
def Unambiguous (r : Rule) : Prop := (r.fields.map (fun e => keyField e.1)).Nodup

/-- `r` is the first of the rules that the packet meets. -/
def FirstMatch (enc : Enc) (port vlan : Option Nat) (rules : List Rule) (r : Rule) (p : Pkt) : Prop :=
  ∃ pre post, rules = pre ++ r :: post ∧ Meets enc port vlan r p ∧ ∀ q ∈ pre, ¬ Meets enc port vlan q p

/-! ## What is output -/

/-- Push a tag: it takes the priority of the tag that was outermost. -/
def pushTag (tags : List (Nat × Nat)) (v : PushVid) : List (Nat × Nat) := (v.vid, (tags.headD (0, 0)).2) :: tags

/-- Change the VID of the outermost tag. -/
def swapTag (tags : List (Nat × Nat)) (v : Nat) : List (Nat × Nat) :=
  match tags with
  | [] => []
  | t :: rest => (v, t.2) :: rest

/-- The tags of the copies: `pop_vlans` outer tags are removed, then one is pushed, changed, or several are pushed. -/
def newTags (d : OutDict) (tags : List (Nat × Nat)) : List (Nat × Nat) :=
  let t := tags.drop (d.popVlans.getD 0)
  match d.vlanVid, d.swapVid with
  | some v, _ => pushTag t v
  | none, some v => swapTag t v
  | none, none => (d.vlanVids.getD []).foldl pushTag t

/-- Set a header field of a packet. -/
def setHdr (p : Pkt) (f : Nat × Nat) : Pkt := { p with hdr := fun g => if g = f.1 then some f.2 else p.hdr g }

/-- The packet as an output in dictionary form changes it. -/
def rewritten (d : OutDict) (p : Pkt) : Pkt := d.setFields.foldl setHdr { p with tags := newTags d p.tags }

/-- All ports of an output in dictionary form. -/
def outPorts (d : OutDict) : List Nat := d.port.toList ++ d.ports.getD []

/-- VIDs are VIDs, and no VLAN field is set by `set_fields`. -/
structure Sane (d : OutDict) : Prop where
  vid : ∀ v, d.vlanVid = some v → v.vid < 4096
  swap : ∀ v, d.swapVid = some v → v < 4096
  vids : ∀ v ∈ d.vlanVids.getD [], v.vid < 4096
  fields : ∀ f ∈ d.setFields, f.1 ≠ fVlanVid ∧ f.1 ≠ fVlanPcp

/-- The list form: the actions one after the other, each output with the packet as it then is. -/
def walk : List OutAct → Pkt → List Emit × Pkt
  | [], p => ([], p)
  | .popVlans n :: l, p => walk l { p with tags := p.tags.drop n }
  | .vlanVid v :: l, p => walk l { p with tags := pushTag p.tags v }
  | .swapVid v :: l, p => walk l { p with tags := swapTag p.tags v }
  | .vlanVids vs :: l, p => walk l { p with tags := vs.foldl pushTag p.tags }
  | .setFields fs :: l, p => walk l (fs.foldl setHdr p)
  | .port n :: l, p => (emitPort p n ++ (walk l p).1, (walk l p).2)
  | .ports ns :: l, p => (ns.flatMap (emitPort p) ++ (walk l p).1, (walk l p).2)
  | _ :: l, p => walk l p

/-- The copies an output sends, and the packet as it leaves it. -/
def outEffect : Option Output → Pkt → List Emit × Pkt
  | none, p => ([], p)
  | some (.dict d), p => ((outPorts d).flatMap (emitPort (rewritten d p)), rewritten d p)
  | some (.ordered l), p => walk l p

/-- The tables an output says to go to. -/
def gotos : Option Output → List Nat
  | none => []
  | some (.dict d) => d.goto.toList
  | some (.ordered l) => l.filterMap (fun a => match a with | .goto t => some t | _ => none)

/-- An element of the list form of the kind the theorems are about. -/
def ActOk : OutAct → Prop
  | .vlanVid v => v.vid < 4096
  | .swapVid v => v < 4096
  | .vlanVids vs => ∀ v ∈ vs, v.vid < 4096
  | .setFields fs => ∀ f ∈ fs, f.1 ≠ fVlanVid ∧ f.1 ≠ fVlanPcp
  | .failover _ _ => False
  | .tunnel _ => False
  | _ => True

/-- An output of the kind the theorems are about: without failover group and tunnel. -/
def OutOk : Output → Prop
  | .dict d => Sane d ∧ d.failover = none ∧ d.tunnel = none
  | .ordered l => ∀ e ∈ l, ActOk e

/-- The packet goes on, by `allow` or because of the mirror. -/
def SaysAllow (a : Actions) : Prop := a.allow = some 1 ∨ (a.allow = none ∧ a.mirror ≠ none)

/-- A rule of the kind the theorems are about: no failover group, tunnel or connection tracking, and it says at most
once where to go. -/
structure Direct (a : Actions) : Prop where
  out : ∀ o, a.output = some o → OutOk o
  noCt : a.ct = none
  oneGoto : gotos a.output = [] ∨ (∃ t, gotos a.output = [t]) ∧ ¬ SaysAllow a

/-- The table a packet goes on to: that of `goto` if configured; if allowed, the next one for packets that pass,
or with `force` the one that forwards. -/
inductive GoesOn (pass forward : Nat) (a : Actions) : Nat → Prop
  | goto {t} : t ∈ gotos a.output → GoesOn pass forward a t
  | allow : SaysAllow a → a.force ≠ some 1 → GoesOn pass forward a pass
  | force : SaysAllow a → a.force = some 1 → GoesOn pass forward a forward

/-- What the packets emitted for a packet must be, if `a` are the actions of the rule that decides: one unchanged copy to
the mirror port; the copies of the output; and, if the packet goes on, it goes on as the output leaves it, and what
becomes of it comes last. -/
def Does (sw : Switch) (pass forward : Nat) (a : Actions) (p : Pkt) (es : List Emit) : Prop :=
  ∃ rest, es = a.mirror.toList.flatMap (emitPort p) ++ ((outEffect a.output p).1 ++ rest) ∧
    (∀ t, GoesOn pass forward a t → Proc sw t (outEffect a.output p).2 rest) ∧ ((∀ t, ¬ GoesOn pass forward a t) → rest = [])

end Faucet.Acl
