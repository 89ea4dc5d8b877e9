import Verif.Valid.Model

/-!
# What an accepted configuration guarantees (C68): vocabulary

In terms of the sections of the configuration.
-/

namespace Faucet.Valid
open Faucet

/-- Sections of one kind have different keys: they are a dictionary. -/
structure Conf.Keyed (c : Conf) : Prop where
  dps : (c.dps.map (·.name)).Nodup
  vlans : (c.vlans.map (·.1)).Nodup

/-- The VLAN section has this VID: given, or else its key. -/
def SecVid (k : Key) (vc : VlanConf) (vid : Nat) : Prop := vc.vid = some (vid : Int) ∨ (vc.vid = none ∧ k = .num vid)

/-- What the key means where an interface refers to a VLAN: the section with the key, or else the VLAN with the VID. -/
def Means (c : Conf) (k : Key) (vid : Nat) : Prop :=
  (∃ vc, (k, vc) ∈ c.vlans ∧ SecVid k vc vid) ∨ ((∀ e ∈ c.vlans, e.1 ≠ k) ∧ k = .num vid)

/-- The number of an interface: given, or else its key. -/
def secNum (e : Key × PortConf) : Key :=
  match e.2.number with
  | some n => .num n
  | none => e.1

/-- The section counts: no later one has the same number. -/
def Effective (l : List (Key × PortConf)) (e : Key × PortConf) : Prop :=
  ∃ pre post, l = pre ++ e :: post ∧ ∀ x ∈ post, secNum x ≠ secNum e

/-- An interface of the switch refers to a VLAN with this key. -/
def Refers (d : DpConf) (k : Key) : Prop :=
  ∃ e, Effective d.interfaces e ∧ (e.2.native = some k ∨ k ∈ e.2.tagged)

/-- The port's VLANs are those the section refers to. -/
structure VlansOf (c : Conf) (e : Key × PortConf) (p : Port) : Prop where
  native : ∀ vid, p.native = some vid ↔ ∃ k, e.2.native = some k ∧ Means c k vid
  tagged : ∀ vid, vid ∈ p.tagged ↔ ∃ k ∈ e.2.tagged, Means c k vid

/-- The port's settings are those of the section. What follows from other sections (mirrors, output only) is not here. -/
structure SettingsOf (e : Key × PortConf) (p : Port) : Prop where
  number : secNum e = .num p.number
  name : e.2.name = some p.name ∨ (e.2.name = none ∧ e.1 = .name p.name) ∨ (e.2.name = none ∧ ∃ n, e.1 = .num n ∧ p.name = .dec n)
  mirrorOf : p.mirrorOf = e.2.mirror
  stack : p.stack = e.2.stack
  coprocessor : p.coprocessor = e.2.coprocessor
  acls : p.acls = e.2.acls
  enabled : p.enabled = e.2.enabled
  hairpin : p.hairpin = e.2.hairpin
  hairpinUnicast : p.hairpinUnicast = e.2.hairpinUnicast
  permanentLearn : p.permanentLearn = e.2.permanentLearn
  loopProtect : p.loopProtect = e.2.loopProtect
  loopProtectExternal : p.loopProtectExternal = e.2.loopProtectExternal
  restricted : p.restricted = e.2.restricted
  unicastFlood : p.unicastFlood = e.2.unicastFlood
  countUntagMiss : p.countUntagMiss = e.2.countUntagMiss
  lacp : p.lacp = e.2.lacp
  receiveLldp : p.receiveLldp = true ↔ e.2.receiveLldp = true ∨ e.2.stack ≠ none
  maxHosts : p.maxHosts = e.2.maxHosts

/-- The VLAN is what its section says. -/
structure SecVlan (k : Key) (vc : VlanConf) (v : Vlan) : Prop where
  vid : SecVid k vc v.vid
  name : vc.name = some v.name ∨ (vc.name = none ∧ k = .name v.name) ∨ (vc.name = none ∧ ∃ n, k = .num n ∧ v.name = .dec n)
  vips : v.vips = vc.vips
  acls : v.acls = vc.acls
  unicastFlood : v.unicastFlood = vc.unicastFlood
  maxHosts : v.maxHosts = vc.maxHosts
  mac : v.mac = vc.mac

/-- The reference is to port `n`: by its number, or by a name that it has and no port before it. -/
def Denotes (ports : List Port) (k : Key) (n : Nat) : Prop :=
  (k = .num n ∧ ∃ p ∈ ports, p.number = n) ∨
  ∃ s pre p post, k = .name s ∧ ports = pre ++ p :: post ∧ p.name = s ∧ p.number = n ∧ ∀ q ∈ pre, q.name ≠ s

/-- The switch uses the ACL. -/
def Dp.uses (d : Dp) (a : Nat) : Prop := (∃ v ∈ d.vlans, a ∈ v.acls) ∨ (∃ p ∈ d.ports, a ∈ p.acls) ∨ a ∈ d.conf.dpAcls

/-- The interface mirrors, or leads to another switch, or is for output only or for a coprocessor: it cannot have VLANs. -/
def Special (pc : PortConf) : Prop := pc.mirror ≠ [] ∨ pc.stack ≠ none ∨ pc.outputOnly = true ∨ pc.coprocessor = true

/-- The key counts as false in Python. -/
def Falsy (k : Key) : Prop := k = .num 0 ∨ k = .name (.other 0)

end Faucet.Valid
