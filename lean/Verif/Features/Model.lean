import Verif.Routed.Model
import Verif.L2.ReloadModel

/-!
# What the tables are declared for

`faucet/faucet_pipeline.py` (match types, set fields and so on), `faucet/dp.py` 521-658, `ValveTable._verify_flowmod` and
`_trim_actions` (`faucet/valve_table.py` 140-199) and `load_tables` (`faucet/tfm_pipeline.py` 54-171). The names, ids, next
tables and miss tables are those of the area `Pipeline`. Sizes of tables are not modelled.
-/

namespace Faucet.Features
open Faucet.OF
open Faucet.Pipeline (Tbl Conf)

/-! ## Match fields that no other area has, numbered by OXM field -/

def fIpProto : Nat := 10
def fIpv4Dst : Nat := 12
def fArpTpa : Nat := 23
def fIpv6Dst : Nat := 27
def fIcmpv6Type : Nat := 29

/-- `ValveTableConfig`, `faucet/faucet_pipeline.py` 23-60: match types (field, and whether it may be masked), fields that may
be set, and so on. `None` is the empty list. -/
structure Decl where
  matchTypes : Dict Nat Bool := []
  setFields : List Nat := []
  exact : Bool := false
  meter : Bool := false
  output : Bool := true
  decTtl : Bool := false
  metadataMatch : Nat := 0
  metadataWrite : Nat := 0
deriving DecidableEq, Repr

/-- `EGRESS_METADATA_MASK`, `faucet/faucet_metadata.py`. -/
def egressMask : Nat := 0xffffff

/-- `_fib_table`, `faucet/faucet_pipeline.py` 84-99. -/
def fibDecl (dst : Nat) : Decl where
  matchTypes := [(fEthType, false), (dst, true), (fVlanVid, false)]
  setFields := [fEthDst, fEthSrc, fVlanVid]
  decTtl := true

/-- The declarations of `faucet/faucet_pipeline.py` 102-211. -/
def standardDecl : Tbl → Decl
  | .portAcl => { matchTypes := [(fInPort, false)] }
  | .vlan => { matchTypes := [(fEthDst, true), (fEthType, false), (fInPort, false), (fVlanVid, false)], setFields := [fVlanVid] }
  | .copro => { matchTypes := [(fInPort, false), (fEthType, false), (fVlanVid, false)] }
  | .vlanAcl => {}
  | .classification => {}
  | .ethSrc =>
    { matchTypes := [(fEthDst, true), (fEthSrc, false), (fEthType, false), (fInPort, false), (fVlanVid, false)],
      setFields := [fVlanVid, fEthDst] }
  | .ipv4Fib => fibDecl fIpv4Dst
  | .ipv6Fib => fibDecl fIpv6Dst
  | .vip =>
    { matchTypes := [(fArpTpa, false), (fEthDst, false), (fEthType, false), (fIcmpv6Type, false), (fIpProto, false)] }
  | .hairpin => { matchTypes := [(fInPort, false), (fEthDst, false), (fVlanVid, false)], exact := true }
  | .ethDst => { matchTypes := [(fEthDst, false), (fVlanVid, false)], exact := true, metadataWrite := egressMask }
  | .egressAcl => {}
  | .egress => { matchTypes := [(fMetadata, true), (fVlanVid, false)], metadataMatch := egressMask }
  | .flood => { matchTypes := [(fEthDst, true), (fInPort, false), (fVlanVid, false)] }

/-- What the declarations depend on: the tables there are, external ports (`has_externals`), ports with
`restricted_bcast_arpnd`, and the tables that `_generate_acl_tables` made. -/
structure Setup where
  conf : Conf
  externals : Bool := false
  restricted : Bool := false
  acl : Tbl → Option Decl := fun _ => none

/-- `faucet/dp.py` 569-573: without an egress pipeline nothing is declared about metadata. -/
def noMetadata (s : Setup) (d : Decl) : Decl :=
  if s.conf.egressPipeline then d else { d with metadataMatch := 0, metadataWrite := 0 }

/-- `faucet/dp.py` 579-587: the field for external forwarding. -/
def withExternal (s : Setup) (t : Tbl) (d : Decl) : Decl :=
  if s.externals && (t == .vlan || t == .ethDst || t == .flood) then
    { d with matchTypes := d.matchTypes ++ [(fVlanPcp, false)], setFields := d.setFields ++ [fVlanPcp] }
  else d

/-- `faucet/dp.py` 589-590. -/
def withRestricted (s : Setup) (t : Tbl) (d : Decl) : Decl :=
  if s.restricted && t == .flood then { d with matchTypes := d.matchTypes ++ [(fEthType, false)] } else d

/-- The declaration of a table, `faucet/dp.py` 559-590. -/
def Setup.decl (s : Setup) (t : Tbl) : Decl :=
  withRestricted s t (withExternal s t (noMetadata s ((s.acl t).getD (standardDecl t))))

/-! ## The checks when a rule is made -/

/-- A flow mod that adds or changes a rule. -/
def isDelete (f : FlowMod) : Bool := f.cmd == .delete || f.cmd == .deleteStrict

/-- The checks of one field, `faucet/valve_table.py` 155-169: it is declared, and a mask is allowed. -/
def fieldOk (d : Decl) (i : MatchItem) : Bool :=
  match d.matchTypes.get? i.field with
  | some mask => mask || i.mask.isNone
  | none => false

/-- The check of exact match tables, `faucet/valve_table.py` 170-176. -/
def exactOk (d : Decl) (f : FlowMod) : Bool :=
  !d.exact || f.mtch.items.isEmpty || d.matchTypes.length == f.mtch.items.length

/-- `_verify_flowmod`, `faucet/valve_table.py` 140-176; `false` is an exception. For a table without match types the test
`in None` raises as well. -/
def verifyMatch (d : Decl) (f : FlowMod) : Bool :=
  if isDelete f then f.mtch.items.all (fun i => (d.matchTypes.get? i.field).isSome)
  else !(f.priority == 0 && !f.mtch.items.isEmpty) && f.mtch.items.all (fieldOk d) && exactOk d f

/-- `action.key in self.set_fields`. -/
def setOk (d : Decl) : Action → Bool
  | .setField k _ => d.setFields.contains k
  | _ => true

/-- The check of `_trim_actions`, `faucet/valve_table.py` 188-198, for one instruction: not if there is connection
tracking. -/
def applyOk (d : Decl) : Inst → Bool
  | .apply acts => acts.any Action.isCt || acts.all (setOk d)
  | _ => true

/-- `_trim_inst`, `faucet/valve_table.py` 201-226: the fields are only checked if there is no goto. The flow mod has the
actions that are left. -/
def verifySets (d : Decl) (f : FlowMod) : Bool := f.inst.any Inst.isGoto || f.inst.all (applyOk d)

/-- `ValveTable.flowmod`, `faucet/valve_table.py` 228-268: no exception. -/
def verify (d : Decl) (f : FlowMod) : Bool := verifyMatch d f && verifySets d f

/-! ## Table features -/

inductive InstKind where
  | apply | goto | meter | writeMetadata
deriving DecidableEq, Repr

inductive ActKind where
  | output | group | pushVlan | popVlan | setField | decTtl | other
deriving DecidableEq, Repr

/-- `OFPTableFeaturesStats`. A property that is missing is empty (`fill_required_properties`, `faucet/tfm_pipeline.py` 27-32). -/
structure Features where
  id : Nat
  metadataMatch : Nat
  metadataWrite : Nat
  fields : List (Nat × Bool)
  wildcards : List (Nat × Bool)
  insts : List InstKind
  next : List Nat
  actions : List ActKind
  setFields : List Nat
  missInsts : List InstKind
  missNext : List Nat
deriving DecidableEq, Repr

/-- What `load_tables` is told of the kind of switch: `GROUPS` and `DEC_TTL`, `faucet/valve.py`. -/
structure Hardware where
  groups : Bool := true
  decTtl : Bool := true
deriving DecidableEq, Repr

/-- `insts`, `faucet/tfm_pipeline.py` 91-108. -/
def instKinds (d : Decl) (next : List Nat) : List InstKind :=
  [.apply] ++ (if next = [] then [] else [.goto]) ++ (if d.meter then [.meter] else [])

/-- `apply_actions`, `faucet/tfm_pipeline.py` 109-133. -/
def actKinds (h : Hardware) (d : Decl) : List ActKind :=
  (if d.decTtl && h.decTtl then [.decTtl] else [])
    ++ (if d.setFields = [] then [] else .setField :: (if d.setFields.contains fVlanVid then [.pushVlan] else []))
    ++ (if d.output then [.output, .popVlan] ++ (if h.groups then [.group] else []) else [])

/-- One table of `load_tables`, `faucet/tfm_pipeline.py` 62-158. -/
def tableFeatures (h : Hardware) (s : Setup) (t : Pipeline.TableConfig) : Features where
  id := t.id
  metadataMatch := (s.decl t.name).metadataMatch
  metadataWrite := (s.decl t.name).metadataWrite
  fields := (s.decl t.name).matchTypes
  wildcards := if (s.decl t.name).exact then [] else (s.decl t.name).matchTypes
  insts := instKinds (s.decl t.name) (t.next.map (Pipeline.idOf s.conf))
  next := t.next.map (Pipeline.idOf s.conf)
  actions := actKinds h (s.decl t.name)
  setFields := (s.decl t.name).setFields
  missInsts := if t.miss.isSome then [.goto] else []
  missNext := t.miss.toList.map (Pipeline.idOf s.conf)

/-- `load_tables`, `faucet/tfm_pipeline.py` 54-171; tables that are not used are left out. -/
def loadTables (h : Hardware) (s : Setup) : List Features := (Pipeline.tables s.conf).map (tableFeatures h s)

/-! ## The switches of the areas `L2` and `Routed` -/

/-- `faucet/dp.py` 579-590. -/
def setup (c : L2.Cfg) : Setup where
  conf := c.conf
  externals := c.hasExternals
  restricted := c.ports.any (fun p => p.restricted)

end Faucet.Features
