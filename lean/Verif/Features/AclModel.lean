import Verif.Features.Model
import Verif.Acl.Model

/-!
# The declarations of ACL tables

`ACL.build` (`faucet/acl.py` 238-310), `resolve_acls` (`faucet/dp.py` 1202-1260) and `_generate_acl_tables`
(`faucet/dp.py` 428-500). ACLs are numbered by name. 802.1X and tunnels are not modelled here.
-/

namespace Faucet.Features
open Faucet.OF
open Faucet.Acl (Acl Enc Ctx)
open Faucet.Pipeline (Tbl Conf)

/-- `matches`, `set_fields` and `meter` of an ACL, `faucet/acl.py` 241-243. A set is a list here. -/
structure Built where
  fields : Dict Nat Bool := []
  sets : List Nat := []
  meter : Bool := false
deriving DecidableEq, Repr

/-- `if has_mask or match not in self.matches: self.matches[match] = has_mask`, `faucet/acl.py` 277-280 and `faucet/dp.py`
484-486. -/
def note (d : Dict Nat Bool) (e : Nat × Bool) : Dict Nat Bool :=
  if e.2 || (d.get? e.1).isNone then d.set e.1 e.2 else d

/-- The fields that an instruction sets, `faucet/acl.py` 268-275. -/
def setKey : Action → Option Nat
  | .setField k _ => some k
  | _ => none

def setsOf : Inst → List Nat
  | .apply as => as.filterMap setKey
  | _ => []

def isMeter : Inst → Bool
  | .meter _ => true
  | _ => false

/-- One turn of the loop of `ACL.build`, `faucet/acl.py` 260-280. Group messages have nothing. -/
def noteMsg (b : Built) : OfMsg → Built
  | .flow f => ⟨(f.mtch.items.map (fun i => (i.field, i.mask.isSome))).foldl note b.fields, b.sets ++ f.inst.flatMap setsOf,
      b.meter || f.inst.any isMeter⟩
  | _ => b

/-- What `ACL.build` builds the rules with, `faucet/acl.py` 246-256: the table that means all tables, and the highest
priority. -/
def wildcardCtx (meters : Dict Nat Nat) (a : Acl) (vid port : Option Nat) : Ctx where
  table := ⟨tableAll, 0⟩
  allowTable := tableAll
  forceTable := tableAll
  highest := 65535
  meters := meters
  exact := a.exactMatch
  port := port
  vlan := vid

/-- `ACL.build`, `faucet/acl.py` 238-280. Other checks than that the rules can be made are left out. -/
def aclBuild (enc : Enc) (meters : Dict Nat Nat) (a : Acl) (vid port : Option Nat) : Option Built :=
  (Acl.buildAcls enc (wildcardCtx meters a vid port) [a]).map (fun ms => ms.foldl noteMsg {})

structure VlanUse where
  vid : Nat
  aclsIn : List Nat := []
  aclsOut : List Nat := []
deriving DecidableEq, Repr

structure PortUse where
  number : Nat
  aclsIn : List Nat := []
  outputOnly : Bool := false
deriving DecidableEq, Repr

/-- The ACLs of a datapath and where they are used. -/
structure AclConf where
  acls : Dict Nat Acl
  vlans : List VlanUse := []
  ports : List PortUse := []
  dpAcls : List Nat := []
  meters : Dict Nat Nat := []

/-- One call of `resolve_acl`. -/
structure Use where
  name : Nat
  vid : Option Nat := none
  port : Option Nat := none
deriving DecidableEq, Repr

def vlanUses (v : VlanUse) : List Use := (v.aclsIn ++ v.aclsOut).map (fun n => ⟨n, some v.vid, none⟩)
def portUses (p : PortUse) : List Use := p.aclsIn.map (fun n => ⟨n, none, some p.number⟩)
def dpUses (k : AclConf) : List Use := k.dpAcls.map (fun n => ⟨n, none, none⟩)

/-- The calls of `resolve_acl` in their order, `faucet/dp.py` 1202-1250: VLANs, ports, datapath. -/
def AclConf.uses (k : AclConf) : List Use := k.vlans.flatMap vlanUses ++ k.ports.flatMap portUses ++ dpUses k

/-- `resolve_acl`, `faucet/dp.py` 1096-1193: an ACL is built anew for each use, and forgets what was found before. -/
def resolveOne (enc : Enc) (k : AclConf) (b : Dict Nat Built) (u : Use) : Option (Dict Nat Built) :=
  (k.acls.get? u.name).bind (fun a => (aclBuild enc k.meters a u.vid u.port).map (fun x => b.set u.name x))

/-- `resolve_acls`; `none`: the configuration is not accepted. -/
def resolveAcls (enc : Enc) (k : AclConf) : Option (Dict Nat Built) := k.uses.foldlM (resolveOne enc k) []

/-- `verify_acl_exact_match`, `faucet/dp.py` 1195-1200. -/
def sameExact (k : AclConf) (ns : List Nat) : Bool :=
  (ns.filterMap k.acls.get?).all (fun a => a.exactMatch == Acl.firstExact (ns.filterMap k.acls.get?))

/-- The other conditions: `verify_acl_exact_match`; dataplane ACLs not with port ACLs (`faucet/dp.py` 1222-1224); ACLs have
rules (`faucet/acl.py` 182). -/
def AclConf.accepted (k : AclConf) : Bool :=
  k.vlans.all (fun v => sameExact k v.aclsIn && sameExact k v.aclsOut) && k.ports.all (fun p => sameExact k p.aclsIn)
    && (k.dpAcls.isEmpty || k.ports.all (fun p => p.aclsIn.isEmpty)) && k.acls.all (fun e => !e.2.rules.isEmpty)

/-- `all_acls`, `faucet/dp.py` 445-476. -/
def AclConf.portNames (k : AclConf) : List Nat := if k.dpAcls.isEmpty then k.ports.flatMap (·.aclsIn) else k.dpAcls
def AclConf.vlanNames (k : AclConf) : List Nat := k.vlans.flatMap (·.aclsIn)
def AclConf.egressNames (k : AclConf) : List Nat := k.vlans.flatMap (·.aclsOut)

/-- One turn of the loop of `faucet/dp.py` 483-489; `exact_match` is that of the last ACL. -/
def mergeAcl (b : Dict Nat Built) (k : AclConf) (d : Decl) (n : Nat) : Decl :=
  { d with
    matchTypes := ((b.get? n).getD {}).fields.foldl note d.matchTypes
    setFields := d.setFields ++ ((b.get? n).getD {}).sets
    meter := d.meter || ((b.get? n).getD {}).meter
    exact := ((k.acls.get? n).map (·.exactMatch)).getD false }

/-- `_generate_acl_tables` for one table, `faucet/dp.py` 477-500. The fields are sorted there. -/
def aclDecl (b : Dict Nat Built) (k : AclConf) (ns : List Nat) : Option Decl :=
  if ns.isEmpty then none else some (ns.foldl (mergeAcl b k) {})

/-- The settings of the datapath. -/
def aclConf (base : Conf) (k : AclConf) : Conf :=
  { base with
    portAcls := !k.portNames.isEmpty
    vlanAcls := !k.vlanNames.isEmpty
    egressAcls := !k.egressNames.isEmpty }

def aclOf (b : Dict Nat Built) (k : AclConf) : Tbl → Option Decl
  | .portAcl => aclDecl b k k.portNames
  | .vlanAcl => aclDecl b k k.vlanNames
  | .egressAcl => aclDecl b k k.egressNames
  | _ => none

def aclSetup (base : Conf) (ext restricted : Bool) (b : Dict Nat Built) (k : AclConf) : Setup where
  conf := aclConf base k
  externals := ext
  restricted := restricted
  acl := aclOf b k

/-- `self.dp.tables.get(name)`. -/
def tableGet (c : Conf) (t : Tbl) : Option Table := if Pipeline.included c t then some ⟨Pipeline.idOf c t, 0⟩ else none

/-- The ACLs of these names. -/
def AclConf.named (k : AclConf) (ns : List Nat) : List Acl := ns.filterMap k.acls.get?

/-- `ValveAclManager` as it is made in `faucet/valve.py` 235-245. -/
def aclMgr (base : Conf) (k : AclConf) : Acl.Mgr where
  portTable := tableGet (aclConf base k) .portAcl
  vlanTable := tableGet (aclConf base k) .vlanAcl
  egressTable := tableGet (aclConf base k) .egressAcl
  toVlan := Pipeline.idOf (aclConf base k) .vlan
  toClass := Pipeline.idOf (aclConf base k) (Pipeline.classTable base)
  toL2 := Pipeline.idOf (aclConf base k) (Pipeline.outTable base)
  toEgress := Pipeline.idOf (aclConf base k) .egress
  meters := k.meters
  dpAcls := k.named k.dpAcls

def AclConf.port (k : AclConf) (p : PortUse) : Acl.Port where
  number := p.number
  aclsIn := k.named p.aclsIn
  outputOnly := p.outputOnly

def AclConf.vlan (k : AclConf) (v : VlanUse) : Acl.Vlan where
  vid := v.vid
  aclsIn := k.named v.aclsIn
  aclsOut := k.named v.aclsOut

end Faucet.Features
