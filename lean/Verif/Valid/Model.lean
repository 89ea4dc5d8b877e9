import Verif.Base.Dict
import Verif.Base.Sort
import Verif.Route.Model
import Verif.Stack.Topo
import Verif.L2.Spec

/-!
# What the parser accepts, and what it makes of it

Model of `_dp_parser_v2` (`/repo/faucet/config_parser.py` 59-271) with the checks of `Port` (`faucet/port.py` 311-490), `VLAN`
(`faucet/vlan.py` 201-300), `DP` (`faucet/dp.py` 346-395, 803-815, 885-1365) and `Stack` (`faucet/stack.py` 253-320).

`none` stands for an exception: the configuration is not applied (C31). The values are of the right types already
(`Conf._check_conf_types`, `faucet/conf.py` 103-124), and a setting that is `null` counts as not given. Booleans as numbers, tunnels,
BGP, 802.1x, meters, LLDP beacons and settings that nothing else depends on are left out; `other` stands for the latter where they
matter. Interface ranges are expanded already (C35).
-/

namespace Faucet.Valid
open Faucet

/-! ## Text -/

/-- A string: the decimal form of a number, or another one. The empty string is `other 0`. -/
inductive Str where
  | dec (n : Int)
  | other (i : Nat)
deriving DecidableEq, Repr

/-- How sections refer to each other: by a number or a string, which are different even if they look the same. -/
inductive Key where
  | num (n : Int)
  | name (s : Str)
deriving DecidableEq, Repr

/-- `str(key)`. -/
def Key.str : Key → Str
  | .num n => .dec n
  | .name s => s

/-- The key as a condition: 0 and the empty string are false. -/
def Key.truthy (k : Key) : Bool := k != .num 0 && k != .name (.other 0)

/-! ## Sections -/

/-- `faucet_vips`: version, address and prefix length. -/
structure Vip where
  v6 : Bool
  ip : Nat
  len : Nat
deriving DecidableEq, Repr

/-- A VLAN section, `faucet/vlan.py` 88-118. -/
structure VlanConf where
  vid : Option Int := none
  name : Option Str := none
  vips : List Vip := []
  acls : List Nat := []
  unicastFlood : Bool := true
  maxHosts : Nat := 256
  mac : Nat := 0x0E0000000001

/-- An interface section, `faucet/port.py` 82-159. `mirror` is a list already (`faucet/port.py` 283-285). -/
structure PortConf where
  number : Option Int := none
  name : Option Str := none
  native : Option Key := none
  tagged : List Key := []
  mirror : List Key := []
  /-- the switch and port at the other end -/
  stack : Option (Nat × Key) := none
  coprocessor : Bool := false
  outputOnly : Bool := false
  acls : List Nat := []
  enabled : Bool := true
  hairpin : Bool := false
  hairpinUnicast : Bool := false
  permanentLearn : Bool := false
  loopProtect : Bool := false
  loopProtectExternal : Bool := false
  restricted : Bool := false
  unicastFlood : Bool := true
  countUntagMiss : Bool := false
  lacp : Nat := 0
  receiveLldp : Bool := false
  maxHosts : Nat := 255
  /-- some other setting that needs a VLAN has a value that is not its default and not false -/
  other : Bool := false

/-- A switch section, `faucet/dp.py` 62-180. The key is the name; a name is a number here. -/
structure DpConf where
  name : Nat
  dpId : Int
  interfaces : List (Key × PortConf)
  /-- `stack: priority` -/
  priority : Option Int := none
  /-- 0 for none -/
  globalVlan : Nat := 0
  dpAcls : List Nat := []
  combinatorial : Bool := false
  groupTable : Bool := false
  timeout : Int := 300
  arpTimeout : Int := 30
  ndTimeout : Int := 30

/-- A configuration. Of an ACL only the ports it mirrors to matter here. -/
structure Conf where
  dps : List DpConf
  vlans : List (Key × VlanConf) := []
  routers : List (Nat × List Key) := []
  acls : List (Nat × List Key) := []

/-! ## What is made of them -/

/-- A VLAN. `tagged` and `untagged` are the numbers of its ports. -/
structure Vlan where
  vid : Nat
  name : Str
  vips : List Vip
  acls : List Nat
  unicastFlood : Bool
  maxHosts : Nat
  mac : Nat
  tagged : List Nat := []
  untagged : List Nat := []
deriving DecidableEq, Repr

/-- A port. VLANs are given by their VIDs: these are unique on a switch. -/
structure Port where
  number : Nat
  name : Str
  native : Option Nat
  tagged : List Nat
  /-- as configured: what to mirror from -/
  mirrorOf : List Key
  /-- as resolved: what to mirror to -/
  mirror : List Nat := []
  stack : Option (Nat × Key)
  coprocessor : Bool
  outputOnly : Bool
  acls : List Nat
  enabled : Bool
  hairpin : Bool
  hairpinUnicast : Bool
  permanentLearn : Bool
  loopProtect : Bool
  loopProtectExternal : Bool
  restricted : Bool
  unicastFlood : Bool
  countUntagMiss : Bool
  lacp : Nat
  receiveLldp : Bool
  maxHosts : Nat
deriving DecidableEq, Repr

/-- A switch. -/
structure Dp where
  conf : DpConf
  ports : List Port
  vlans : List Vlan
  routers : List (Nat × List Vlan) := []

/-! ## VLANs -/

/-- `VLAN.vid_valid`, `faucet/vlan.py` 289-291, `faucet/valve_of.py` 47-48. -/
def validVid (n : Int) : Bool := decide (1 ≤ n) && decide (n ≤ 4095)

/-- `faucet_vip.network.prefixlen == faucet_vip.max_prefixlen`, `faucet/vlan.py` 252-256. -/
def Vip.isHost (x : Vip) : Bool := x.len == if x.v6 then 128 else 32

/-- `vid` after `set_defaults`, `faucet/vlan.py` 195-199. -/
def VlanConf.vidKey (c : VlanConf) (k : Key) : Key := (c.vid.map Key.num).getD k

/-- `VLAN(key, dp_id, conf)`, `faucet/vlan.py` 147-287. -/
def mkVlan (k : Key) (c : VlanConf) : Option Vlan :=
  match c.vidKey k with
  | .name _ => none
  | .num n =>
    if !validVid n || c.vips.any Vip.isHost then none
    else some { vid := n.toNat, name := c.name.getD k.str, vips := c.vips, acls := c.acls, unicastFlood := c.unicastFlood,
                maxHosts := c.maxHosts, mac := c.mac }

/-- One VLAN section, `faucet/config_parser.py` 201-213. -/
def addVlan (vs : Dict Key Vlan) (kc : Key × VlanConf) : Option (Dict Key Vlan) :=
  match mkVlan kc.1 kc.2 with
  | none => none
  | some v =>
    if kc.1.str ≠ .dec v.vid ∧ kc.1.str ≠ v.name then none
    else if vs.values.any (fun u => u.vid == v.vid) then none
    else some (vs.set kc.1 v)

/-- All VLAN sections, `faucet/config_parser.py` 199-214. -/
def parseVlans (l : List (Key × VlanConf)) : Option (Dict Key Vlan) := l.foldlM addVlan []

/-- `_get_vlan_by_key`, `faucet/config_parser.py` 59-76: the VLANs, one more perhaps, and the one that is meant. -/
def getVlan (vs : Dict Key Vlan) (k : Key) : Option (Dict Key Vlan × Nat) :=
  match vs.get? k with
  | some v => some (vs, v.vid)
  | none =>
    match vs.values.find? (fun v => k == .num v.vid) with
    | some v => some (vs, v.vid)
    | none =>
      match k with
      | .name _ => none
      | .num _ => (mkVlan k {}).map (fun v => (vs.set k v, v.vid))

/-- Tagged VLANs, `faucet/config_parser.py` 85-91. -/
def getVlans : Dict Key Vlan → List Key → Option (Dict Key Vlan × List Nat)
  | vs, [] => some (vs, [])
  | vs, k :: ks =>
    match getVlan vs k with
    | none => none
    | some (vs, v) => (getVlans vs ks).map (fun r => (r.1, v :: r.2))

/-- The native VLAN, `faucet/config_parser.py` 80-83. -/
def getNative (vs : Dict Key Vlan) : Option Key → Option (Dict Key Vlan × Option Nat)
  | none => some (vs, none)
  | some k => (getVlan vs k).map (fun r => (r.1, some r.2))

/-! ## Ports -/

/-- `valve_of.ignore_port`, `faucet/valve_of.py` 258-269: `OFPP_LOCAL` and `OFPP_IN_PORT` are not ignored. -/
def ignorePort (n : Int) : Bool := if n = 0xfffffffe ∨ n = 0xfffffff8 then false else decide (n > 0xF0000000)

/-- `number` after `set_defaults`, `faucet/port.py` 304-309. -/
def PortConf.numKey (c : PortConf) (k : Key) : Key := (c.number.map Key.num).getD k

/-- `name` after `set_defaults`. -/
def PortConf.nameStr (c : PortConf) (k : Key) : Str := c.name.getD k.str

/-- `vlan_port`, `faucet/port.py` 339. -/
def PortConf.vlanPort (c : PortConf) : Bool := !c.tagged.isEmpty || c.native.any Key.truthy

/-- `non_vlan_port_options` is not empty, `faucet/port.py` 331, 340-342. -/
def PortConf.nonVlan (c : PortConf) : Bool := c.stack.isSome || !c.mirror.isEmpty || c.coprocessor || c.outputOnly

/-- Options that do not go together, `faucet/port.py` 347-364. -/
def PortConf.clash (c : PortConf) : Bool :=
  if c.outputOnly then c.stack.isSome || c.coprocessor
  else if !c.mirror.isEmpty then c.stack.isSome
  else c.stack.isSome && c.coprocessor

/-- A setting for VLAN ports is given, `faucet/port.py` 365-376. -/
def PortConf.vlanOption (c : PortConf) : Bool :=
  c.permanentLearn || c.hairpin || c.hairpinUnicast || c.lacp != 0 || c.loopProtect || c.loopProtectExternal || c.restricted ||
  c.countUntagMiss || c.receiveLldp || (c.maxHosts != 255 && c.maxHosts != 0) || c.other ||
  (!c.acls.isEmpty && !(c.stack.isSome || c.coprocessor))

/-- `Port.check_config`, `faucet/port.py` 322-380. -/
def PortConf.bad (c : PortConf) : Bool :=
  (c.vlanPort && c.nonVlan) || c.clash || (c.nonVlan && c.vlanOption) || (c.hairpin && c.hairpinUnicast)

/-- The port, its VLANs apart. Stack ports receive LLDP, `faucet/port.py` 417-418. -/
def mkPort (k : Key) (c : PortConf) (n : Nat) (native : Option Nat) (tagged : List Nat) : Port where
  number := n
  name := c.nameStr k
  native := native
  tagged := tagged
  mirrorOf := c.mirror
  stack := c.stack
  coprocessor := c.coprocessor
  outputOnly := c.outputOnly
  acls := c.acls
  enabled := c.enabled
  hairpin := c.hairpin
  hairpinUnicast := c.hairpinUnicast
  permanentLearn := c.permanentLearn
  loopProtect := c.loopProtect
  loopProtectExternal := c.loopProtectExternal
  restricted := c.restricted
  unicastFlood := c.unicastFlood
  countUntagMiss := c.countUntagMiss
  lacp := c.lacp
  receiveLldp := c.receiveLldp || c.stack.isSome
  maxHosts := c.maxHosts

/-- Number, key and settings are in order: `faucet/port.py` 322-380, `faucet/config_parser.py` 93-97. -/
def portNumber (k : Key) (c : PortConf) : Option Nat :=
  match c.numKey k with
  | .name _ => none
  | .num n =>
    if decide (n ≤ 0) || ignorePort n then none
    else if c.bad then none
    else if k.str ≠ .dec n ∧ k.str ≠ c.nameStr k then none
    else some n.toNat

/-- `_dp_parse_port`, `faucet/config_parser.py` 79-100. -/
def parsePort (vs : Dict Key Vlan) (k : Key) (c : PortConf) : Option (Dict Key Vlan × Port) :=
  match portNumber k c with
  | none => none
  | some n =>
    match getNative vs c.native with
    | none => none
    | some (vs, native) =>
      (getVlans vs c.tagged).map (fun r => (r.1, mkPort k c n native r.2))

/-- `_map_port_num_to_port`, `faucet/config_parser.py` 115-128. -/
def portMap (l : List (Key × PortConf)) : Dict Key (Key × PortConf) :=
  l.foldl (fun d kc => d.set (kc.2.numKey kc.1) kc) []

/-- The ports in turn, `faucet/config_parser.py` 169-171, `faucet/dp.py` 803-806. The numbers are different already. -/
def parsePorts : Dict Key Vlan → List (Key × PortConf) → Option (Dict Key Vlan × List Port)
  | vs, [] => some (vs, [])
  | vs, kc :: l =>
    match parsePort vs kc.1 kc.2 with
    | none => none
    | some (vs, p) => (parsePorts vs l).map (fun r => (r.1, p :: r.2))

/-- `DP.check_config`, `faucet/dp.py` 346-384. -/
def DpConf.bad (d : DpConf) : Bool :=
  decide (d.dpId < 0) || decide (d.dpId > 2 ^ 64 - 1) || d.interfaces.isEmpty || decide (d.timeout < 15) ||
  decide (d.timeout > 65535) || !decide (2 * d.arpTimeout < d.timeout) || !decide (2 * d.ndTimeout < d.timeout) ||
  (d.combinatorial && d.groupTable)

/-- `_parse_dp`, `faucet/config_parser.py` 193-219. -/
def parseDp (c : Conf) (d : DpConf) : Option (DpConf × Dict Key Vlan × List Port) :=
  if d.bad then none
  else
    match parseVlans c.vlans with
    | none => none
    | some vs => (parsePorts vs (portMap d.interfaces).values).map (fun r => (d, r.1, r.2))

/-! ## All switches together -/

/-- VLANs that are not sections, `faucet/config_parser.py` 236-240. -/
def implicitKeys (c : Conf) (ds : List (DpConf × Dict Key Vlan × List Port)) : List Key :=
  ds.flatMap (fun d => d.2.1.keys.filter (fun k => !(c.vlans.any (fun e => e.1 == k))))

/-- A VLAN another switch made, `faucet/config_parser.py` 243-245. -/
def addImplicit (vs : Dict Key Vlan) (k : Key) : Option (Dict Key Vlan) :=
  if vs.has k then some vs else (mkVlan k {}).map (fun v => vs.set k v)

/-- Numbers in order. -/
def sortNums (l : List Nat) : List Nat := isort (fun a b => decide (a ≤ b)) l

/-- `VLAN.reset_ports`, `faucet/vlan.py` 302-318. -/
def Vlan.withPorts (v : Vlan) (ports : List Port) : Vlan where
  vid := v.vid
  name := v.name
  vips := v.vips
  acls := v.acls
  unicastFlood := v.unicastFlood
  maxHosts := v.maxHosts
  mac := v.mac
  tagged := sortNums ((ports.filter (fun p => p.tagged.contains v.vid)).map (·.number))
  untagged := sortNums ((ports.filter (fun p => p.native == some v.vid)).map (·.number))

/-- `DP.reset_refs(vlans)`, `faucet/dp.py` 885-923. `self.stack_ports` in line 905 is a method and so always true: every VLAN is
kept. VIDs are unique, so that the dictionary by VID has them all. -/
def resetRefs (c : Conf) (ds : List (DpConf × Dict Key Vlan × List Port)) (d : DpConf × Dict Key Vlan × List Port) : Option Dp :=
  ((implicitKeys c ds).foldlM addImplicit d.2.1).map
    (fun vs => { conf := d.1, ports := d.2.2, vlans := vs.values.map (fun v => v.withPorts d.2.2) })

/-! ## `DP.finalize_config` -/

/-- `DP.resolve_port`, `faucet/dp.py` 925-937. -/
def resolvePort (ports : List Port) : Key → Option Port
  | .num n => ports.find? (fun p => decide ((p.number : Int) = n))
  | .name s => ports.find? (fun p => decide (p.name = s))

/-- `resolve_stack_dps`, `faucet/dp.py` 992-1015: the other end of a stack port. -/
def stackPeer (dps : List Dp) (r : Nat × Key) : Option Port :=
  match dps.find? (fun d => d.conf.name == r.1) with
  | none => none
  | some d => resolvePort d.ports r.2

/-- The port has no stack configuration, or it can be resolved. -/
def stackOk (dps : List Dp) (p : Port) : Bool :=
  match p.stack with
  | none => true
  | some r => (stackPeer dps r).isSome

/-- `mirror_from_port[port]`, `faucet/dp.py` 1019-1029: the numbers of the ports that mirror the port, once for each reference. -/
def mirrorTo (ports : List Port) (p : Port) : List Nat :=
  ports.flatMap (fun q => (q.mirrorOf.filter (fun k => decide ((resolvePort ports k).map (·.number) = some p.number))).map
    (fun _ => q.number))

/-- The numbers of the ports that a port mirrors. -/
def mirrorFrom (ports : List Port) (p : Port) : List Nat := p.mirrorOf.filterMap (fun k => (resolvePort ports k).map (·.number))

/-- Ports that an ACL in use mirrors to, `faucet/dp.py` 1172-1175. -/
def aclMirrors (c : Conf) (ports : List Port) (a : Nat) : Option (List Nat) :=
  match c.acls.find? (fun e => e.1 == a) with
  | none => none
  | some e => e.2.mapM (fun k => (resolvePort ports k).map (·.number))

/-- ACLs in use, `faucet/dp.py` 1186-1240. -/
def Dp.usedAcls (d : Dp) : List Nat := d.vlans.flatMap (·.acls) ++ d.ports.flatMap (·.acls) ++ d.conf.dpAcls

/-- The port after `resolve_mirror_destinations` (`faucet/dp.py` 1017-1037) and `resolve_acls`. A port that is not mirrored keeps
its `mirror`: the names of the ports that it mirrors, here their numbers. It has no VLANs, so that nothing uses them. -/
def Port.resolved (ports : List Port) (outs : List Nat) (p : Port) : Port where
  number := p.number
  name := p.name
  native := p.native
  tagged := p.tagged
  mirrorOf := p.mirrorOf
  mirror := if (mirrorTo ports p).isEmpty then mirrorFrom ports p else mirrorTo ports p
  stack := p.stack
  coprocessor := p.coprocessor
  outputOnly := p.outputOnly || (!p.mirrorOf.isEmpty && !p.coprocessor) || outs.contains p.number
  acls := p.acls
  enabled := p.enabled
  hairpin := p.hairpin
  hairpinUnicast := p.hairpinUnicast
  permanentLearn := p.permanentLearn
  loopProtect := p.loopProtect
  loopProtectExternal := p.loopProtectExternal
  restricted := p.restricted
  unicastFlood := p.unicastFlood
  countUntagMiss := p.countUntagMiss
  lacp := p.lacp
  receiveLldp := p.receiveLldp
  maxHosts := p.maxHosts

/-- `resolve_vlan`, `faucet/dp.py` 970-981: by name (of several VLANs of a name, the last), then by VID. -/
def resolveVlan (vs : List Vlan) (k : Key) : Option Vlan :=
  match vs.reverse.find? (fun v => k == .name v.name) with
  | some v => some v
  | none => vs.find? (fun v => k == .num v.vid)

/-- Width of an address. -/
def Vip.width (x : Vip) : Nat := if x.v6 then 128 else 32

/-- The VIP without its version. -/
def Vip.addr (x : Vip) : Route.Vip := ⟨x.ip, x.len⟩

/-- `ip.is_link_local`: 169.254.0.0/16 and fe80::/10. -/
def Vip.linkLocal (x : Vip) : Bool := if x.v6 then x.ip / 2 ^ 118 == 0x3FA else x.ip / 2 ^ 16 == 0xA9FE

/-- `vip.ip in other_vip.network`. -/
def Vip.inNetOf (x y : Vip) : Bool := x.v6 == y.v6 && (y.addr.net y.width).contains y.width x.ip

/-- VIPs of a router, `faucet/dp.py` 1296-1299. -/
def routerVips (vs : List Vlan) : List Vip := vs.flatMap (fun v => v.vips.filter (fun x => !x.linkLocal))

/-- Some VIP is in the network of another one, `faucet/dp.py` 1301-1307. The VIPs are a set: one that two VLANs have counts once. -/
def overlap (vs : List Vlan) : Bool :=
  (routerVips vs).any (fun x => (routerVips vs).any (fun y => y != x && x.inNetOf y))

/-- Routers in turn, `faucet/dp.py` 1286-1307: `seen` are the VIDs of the VLANs of earlier ones. -/
def routersOk : List Nat → List (Nat × List Vlan) → Bool
  | _, [] => true
  | seen, r :: rs =>
    !(r.2.length == 1 && r.2.any (fun v => seen.contains v.vid)) && !overlap r.2 && routersOk (seen ++ r.2.map (·.vid)) rs

/-- The routers of a switch, `faucet/dp.py` 1262-1271: names that are not those of VLANs are left out. -/
def dpRouters (c : Conf) (vs : List Vlan) : List (Nat × List Vlan) :=
  (c.routers.map (fun r => (r.1, r.2.filterMap (resolveVlan vs)))).filter (fun r => !r.2.isEmpty)

/-- `non_vlan_ports`, `faucet/dp.py` 727-736, before mirrors are resolved. -/
def Port.nonVlan (p : Port) : Bool := p.outputOnly || p.stack.isSome || p.coprocessor

/-- Conditions of `finalize_config`, `faucet/dp.py` 939-1365, other than those of stack ports, mirrors and ACLs. -/
def finalOk (c : Conf) (d : Dp) : Bool :=
  !(d.vlans.isEmpty && !d.ports.any Port.nonVlan) &&
  !(d.ports.any (fun p => !p.acls.isEmpty) && !d.conf.dpAcls.isEmpty) &&
  !(d.conf.globalVlan != 0 && d.vlans.any (fun v => v.vid == d.conf.globalVlan)) &&
  routersOk [] (dpRouters c d.vlans) &&
  d.ports.all (fun p => p.native.all (fun v => !p.tagged.contains v))

/-- `finalize_config`, `faucet/dp.py` 939-1365. -/
def finalizeDp (c : Conf) (dps : List Dp) (d : Dp) : Option Dp :=
  if !d.ports.all (stackOk dps) then none
  else if !d.ports.all (fun p => p.mirrorOf.all (fun k => (resolvePort d.ports k).isSome)) then none
  else if !finalOk c d then none
  else (d.usedAcls.mapM (aclMirrors c d.ports)).map
    (fun outs => { conf := d.conf, ports := d.ports.map (Port.resolved d.ports outs.flatten), vlans := d.vlans,
                   routers := dpRouters c d.vlans })

/-! ## The stack -/

/-- A stack port and the port it leads to. -/
structure Link where
  dp : Nat
  port : Port
  peerDp : Nat
  peer : Port
deriving DecidableEq

/-- The stack ports of a switch with their other ends. -/
def Dp.links (dps : List Dp) (d : Dp) : List Link :=
  d.ports.filterMap (fun p => p.stack.bind (fun r => (stackPeer dps r).map (fun q => ⟨d.conf.name, p, r.1, q⟩)))

/-- Has stack ports. -/
def Dp.stacked (d : Dp) : Bool := d.ports.any (fun p => p.stack.isSome)

/-- The links have the same name, `faucet/stack.py` 325-342: names of switches and ports are used. -/
def Link.same (x y : Link) : Bool :=
  (x.dp == y.dp && x.port.name == y.port.name && x.peerDp == y.peerDp && x.peer.name == y.peer.name) ||
  (x.dp == y.peerDp && x.port.name == y.peer.name && x.peerDp == y.dp && x.peer.name == y.port.name)

/-- The ends cannot be sorted (`faucet/stack.py` 331): they have the same names, and switches have no order. -/
def Link.unsortable (x : Link) : Bool := x.dp == x.peerDp && x.port.name == x.peer.name

/-- The links as numbers. -/
def cabling (ls : List Link) : Stack.Cabling := ls.map (fun l => ⟨l.dp, l.port.number, l.peerDp, l.peer.number⟩)

/-- Order of `nominate_stack_root` when none is healthy yet, `faucet/stack.py` 236-251. -/
def rootLe (a b : Dp) : Bool :=
  decide (a.conf.priority.getD 0 < b.conf.priority.getD 0) ||
    (decide (a.conf.priority.getD 0 = b.conf.priority.getD 0) && decide (a.conf.dpId ≤ b.conf.dpId))

/-- Switches that may be the root, `faucet/stack.py` 262. -/
def rootCands (dps : List Dp) : List Dp := dps.filter (fun d => d.stacked && d.conf.priority.getD 0 != 0)

/-- `Stack.resolve_topology`, `faucet/stack.py` 253-320, without a root from before. -/
def topologyOk (dps : List Dp) : Bool :=
  let ls := dps.flatMap (Dp.links dps)
  match isort rootLe (rootCands dps) with
  | [] => !dps.any Dp.stacked
  | root :: _ =>
    (rootCands dps).all (fun d => decide (d.conf.priority.getD 0 > 0)) &&
    ls.all (fun x => !x.unsortable && ls.countP (fun y => x.same y) == 2) &&
    (Stack.fullGraph (cabling ls)).nodes.all (fun s => !(Stack.shortestPath (Stack.fullGraph (cabling ls)) s root.conf.name).isEmpty)

/-- DPIDs and routers, `faucet/config_parser.py` 256-270. -/
def restOk (c : Conf) (dps : List Dp) : Bool :=
  decide ((dps.map (fun d => d.conf.dpId)).Nodup) && c.routers.all (fun r => dps.any (fun d => d.routers.any (fun x => x.1 == r.1)))

/-- `_dp_parser_v2`, `faucet/config_parser.py` 222-273. -/
def parse (c : Conf) : Option (List Dp) :=
  match c.dps.mapM (parseDp c) with
  | none => none
  | some ds =>
    match ds.mapM (resetRefs c ds) with
    | none => none
    | some dps0 =>
      match dps0.mapM (finalizeDp c dps0) with
      | none => none
      | some dps => if !topologyOk dps || !restOk c dps then none else some dps

/-! ## As other parts of the model see it -/

/-- The port of the switching model. -/
def Port.toL2 (p : Port) : L2.LPort where
  number := p.number
  native := p.native
  tagged := p.tagged
  mirror := p.mirror
  enabled := p.enabled
  hairpin := p.hairpin
  hairpinUnicast := p.hairpinUnicast
  permanentLearn := p.permanentLearn
  loopProtect := p.loopProtect
  loopProtectExternal := p.loopProtectExternal
  restricted := p.restricted
  unicastFlood := p.unicastFlood
  countUntagMiss := p.countUntagMiss
  lacp := p.lacp
  receiveLldp := p.receiveLldp
  outputOnly := p.outputOnly
  maxHosts := p.maxHosts

/-- The VLAN of the switching model. -/
def Vlan.toL2 (v : Vlan) : L2.LVlan where
  vid := v.vid
  unicastFlood := v.unicastFlood
  maxHosts := v.maxHosts
  faucetMac := v.mac

/-- The switch of the switching model, for switches without ACLs, routing and stacking. -/
def Dp.toL2 (d : Dp) : L2.Cfg where
  ports := isort (fun a b => decide (a.number ≤ b.number)) (d.ports.map Port.toL2)
  vlans := d.vlans.map Vlan.toL2
  combinatorial := d.conf.combinatorial
  groupTable := d.conf.groupTable

end Faucet.Valid
