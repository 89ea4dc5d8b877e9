import Verif.Flood.Model
import Verif.OpenFlow.Datapath

/-!
# Flooding: specification

Who gets a copy of a flooded packet, in terms of the configuration and state of the ports only.
-/

namespace Faucet.Flood
open Faucet.OF

/-- What the configuration parser guarantees of the members of a VLAN: port numbers are unique and not `OFPP_IN_PORT`,
and mirror destinations are not VLAN members (`faucet/port.py` 331-346: `mirror` excludes VLANs). -/
structure WF (v : FVlan) : Prop where
  nodup : (v.ports.map FPort.number).Nodup
  notInPort : ∀ p ∈ v.ports, p.number ≠ portInPort
  mirrors : ∀ p ∈ v.ports, ∀ m ∈ p.mirror, m ≠ portInPort ∧ ∀ q ∈ v.ports, q.number ≠ m

/-- The member of its LACP bundle that the VLAN floods to: the first one that is selected and up. -/
def Chosen (v : FVlan) (q : FPort) : Prop :=
  ∃ pre post, v.ports = pre ++ q :: post ∧ q.selected = true ∧ q.actorUp = true ∧
    ∀ r ∈ pre, r.lacp = q.lacp → ¬ (r.selected = true ∧ r.actorUp = true)

/-- The external port that the VLAN floods to: the up one with the lowest number. -/
def FirstExternal (v : FVlan) (q : FPort) : Prop :=
  ∀ r ∈ v.ports, r.external = true → r.physUp = true → q.number ≤ r.number

/-- What makes a member ineligible because of where the packet came from (`inPort = none`: not considered). -/
structure Eligible (v : FVlan) (inPort : Option FPort) (allExternal exclRestricted : Bool) (q : FPort) : Prop where
  /-- a member of a bundle must be its chosen one, and not of the bundle the packet came from -/
  lag : q.lacp ≠ 0 → Chosen v q ∧ ∀ p, inPort = some p → p.lacp ≠ q.lacp
  /-- a port whose native VLAN was replaced by 802.1x does not get floods of the replaced VLAN -/
  native : q ∈ v.untagged → q.dot1xVid = none ∨ q.dot1xVid = some v.vid
  /-- an external port must be the first one up, and the packet must not come from an external port -/
  ext : q.external = true → q.physUp = true →
    allExternal = false ∧ (∀ p, inPort = some p → p.external = false) ∧ FirstExternal v q
  /-- restricted ports do not send each other arbitrary broadcasts -/
  restr : exclRestricted = true → q.restricted = false

/-- A member that floods may go to: with `eu` (unknown unicast) only if it accepts unicast floods. -/
def FloodMember (v : FVlan) (eu : Bool) (q : FPort) : Prop := q ∈ v.ports ∧ (eu = true → q.unicastFlood = true)

/-- Copies of a packet that leave through a port. -/
def copiesTo (n : Nat) (es : List Emit) : List Emit := es.filter (fun e => e.port == n)

/-- A packet of a VLAN in the flood table: outer tag is the VLAN's, came in through `p`. -/
structure InVlan (v : FVlan) (p : FPort) (k : Pkt) : Prop where
  tag : ∃ pcp rest, k.tags = (v.vid, pcp) :: rest
  port : k.hdr fInPort = some p.number

/-- The copy has the packet's content and, as far as VIDs go, its tags (for a tagged member) or its tags without the
outermost (for an untagged one). -/
def RightCopy (v : FVlan) (k : Pkt) (q : FPort) (e : Emit) : Prop :=
  e.port = q.number ∧ e.hdr = k.hdr ∧
    e.tags.map Prod.fst = (if q ∈ v.tagged then k.tags else k.tags.tail).map Prod.fst

/-- A member other than the ingress port that is due a copy of a flood that came in through `p`. -/
def Due (v : FVlan) (p : FPort) (eu allExternal exclRestricted : Bool) (q : FPort) : Prop :=
  q ∈ v.ports ∧ q ≠ p ∧ FloodMember v eu q ∧ Eligible v (some p) allExternal (exclRestricted && p.restricted) q

/-- The emissions are those of a correct flood of the packet: -/
structure Delivered (v : FVlan) (p : FPort) (eu allExternal exclRestricted : Bool) (k : Pkt) (es : List Emit) : Prop where
  /-- a member that is due a copy gets exactly one, rightly tagged -/
  due : ∀ q, Due v p eu allExternal exclRestricted q → ∃ e, copiesTo q.number es = [e] ∧ RightCopy v k q e
  /-- another member gets none -/
  notDue : ∀ q ∈ v.ports, q ≠ p → ¬ Due v p eu allExternal exclRestricted q → copiesTo q.number es = []
  /-- the ingress port gets one if it is a hairpin port that floods go to -/
  hairpin : p.hairpin = true → FloodMember v eu p → ∃ e, copiesTo p.number es = [e] ∧ RightCopy v k p e
  /-- and none otherwise -/
  noReturn : ¬ (p.hairpin = true ∧ FloodMember v eu p) → copiesTo p.number es = []
  /-- a copy that does not go to a member goes to a mirror of a member that is due a copy -/
  within : ∀ e ∈ es, (∃ q ∈ v.ports, e.port = q.number) ∨
    ∃ q, Due v p eu allExternal exclRestricted q ∧ e.port ∈ q.mirror

/-- What holds of any flood, whoever is due a copy. -/
structure Safe (v : FVlan) (p : FPort) (k : Pkt) (es : List Emit) : Prop where
  /-- nothing goes back to a port that is not hairpin -/
  noReturn : p.hairpin = false → copiesTo p.number es = []
  /-- a member gets at most one copy, rightly tagged -/
  atMostOne : ∀ q ∈ v.ports, copiesTo q.number es = [] ∨ ∃ e, copiesTo q.number es = [e] ∧ RightCopy v k q e
  /-- copies go to members or mirrors of members -/
  within : ∀ e ∈ es, (∃ q ∈ v.ports, e.port = q.number) ∨ ∃ q ∈ v.ports, e.port ∈ q.mirror
  /-- at most one member of each bundle gets a copy, a selected and up one -/
  oneOfLag : ∀ q ∈ v.ports, ∀ r ∈ v.ports, q ≠ p → r ≠ p → q.lacp ≠ 0 → q.lacp = r.lacp →
    copiesTo q.number es ≠ [] → copiesTo r.number es ≠ [] → q = r ∧ q.selected = true ∧ q.actorUp = true
  /-- at most one up external port gets a copy -/
  oneExternal : ∀ q ∈ v.ports, ∀ r ∈ v.ports, q ≠ p → r ≠ p → q.external = true → q.physUp = true →
    r.external = true → r.physUp = true → copiesTo q.number es ≠ [] → copiesTo r.number es ≠ [] → q = r

end Faucet.Flood
