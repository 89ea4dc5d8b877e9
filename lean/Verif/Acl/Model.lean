import Verif.Base.Dict
import Verif.Base.Sort
import Verif.OpenFlow.Table

/-!
# ACLs: from configured rules to flows

`faucet/valve_acl.py`, `faucet/valve_of.py` 769-840, `faucet/valve_of_old.py`. An exception is `none`.
-/

namespace Faucet.Acl
open Faucet.OF

/-- The name of a match field in a rule: the current name of field `f` (a key of `MATCH_FIELDS`), an old name of it
(`OLD_MATCH_FIELDS`, `faucet/valve_of_old.py` 21-29), or a name that is neither. -/
inductive Key where
  | new (f : Nat)
  | old (f : Nat)
  | unknown (n : Nat)
deriving DecidableEq, Repr

/-- A configured value: a number, or a text (numbered). -/
inductive Val where
  | int (n : Nat)
  | text (n : Nat)
deriving DecidableEq, Repr

/-- The fields that have an old name: `eth_dst`, `eth_src`, `eth_type`, `vlan_vid`, `ip_proto`, `ipv4_src`, `ipv4_dst`. -/
def oldFields : List Nat := [3, 4, 5, 6, 10, 11, 12]

/-- The field meant by a name, `faucet/valve_of.py` 826-829; `none`: "Unknown match field". -/
def keyField : Key → Option Nat
  | .new f => some f
  | .old f => if oldFields.contains f then some f else none
  | .unknown _ => none

/-- The functions of `MATCH_FIELDS`, `faucet/valve_of.py` 769-819, by field: value and mask, or an exception. They are
library functions: a parameter, of which only `EncOk` is assumed. -/
abbrev Enc := Nat → Val → Option (Nat × Option Nat)

/-- What is assumed of the conversions: a port number stands for itself, a VID as number gets the present bit. -/
structure EncOk (enc : Enc) : Prop where
  inPort : ∀ n, enc fInPort (.int n) = some (n, none)
  vid : ∀ v, enc fVlanVid (.int v) = some (vidPresent v, none)

/-- One turn of the loop of `match_from_dict`, `faucet/valve_of.py` 825-838. -/
def matchStep (enc : Enc) (kw : Dict Nat (Nat × Option Nat)) (e : Key × Val) : Option (Dict Nat (Nat × Option Nat)) :=
  (keyField e.1).bind (fun f => (enc f e.2).map (fun x => kw.set f x))

/-- `match_from_dict`, `faucet/valve_of.py` 822-840. The library keeps the fields of a match in the order of their
numbers. -/
def matchFromDict (enc : Enc) (d : Dict Key Val) : Option (List MatchItem) :=
  (d.foldlM (matchStep enc) []).map (fun kw =>
    (isort (fun a b => decide (a.1 ≤ b.1)) kw).map (fun e => ⟨e.1, e.2.1, e.2.2⟩))

/-- A VID to push, with the type of its tag if configured. -/
structure PushVid where
  vid : Nat
  ethType : Option Nat := none
deriving DecidableEq, Repr

/-- An output action in the dictionary form; ports are resolved to numbers. -/
structure OutDict where
  popVlans : Option Nat := none
  vlanVid : Option PushVid := none
  swapVid : Option Nat := none
  vlanVids : Option (List PushVid) := none
  setFields : List (Nat × Nat) := []
  port : Option Nat := none
  ports : Option (List Nat) := none
  failover : Option (Nat × List Nat) := none
  tunnel : Option Nat := none
  goto : Option Nat := none
deriving DecidableEq, Repr

/-- One element of an output action in the list form (one key each, `faucet/acl.py` 198-208). -/
inductive OutAct where
  | popVlans (n : Nat)
  | vlanVid (v : PushVid)
  | swapVid (v : Nat)
  | vlanVids (vs : List PushVid)
  | setFields (fs : List (Nat × Nat))
  | port (n : Nat)
  | ports (ns : List Nat)
  | failover (gid : Nat) (ns : List Nat)
  | tunnel (t : Nat)
  | goto (t : Nat)
deriving DecidableEq, Repr

inductive Output where
  | dict (d : OutDict)
  | ordered (l : List OutAct)
deriving DecidableEq, Repr

/-- The value of `actions` in a rule. Mirror ports are resolved to numbers, meters are numbered by name. -/
structure Actions where
  allow : Option Nat := none
  force : Option Nat := none
  meter : Option Nat := none
  mirror : Option Nat := none
  output : Option Output := none
  ct : Option Nat := none
deriving DecidableEq, Repr

structure Rule where
  fields : Dict Key Val := []
  cookie : Option Nat := none
  actions : Option Actions := none
deriving DecidableEq, Repr

structure Acl where
  rules : List Rule
  exactMatch : Bool := false
deriving DecidableEq, Repr

/-- What the builders are given: the table, where allowed packets go (`acl_allow_inst`, `acl_force_port_vlan_inst`, both a
single goto), the meter ids by name, `port_num`, `vlan_vid`, the output rule of each tunnel for this source
(`tunnel_rules[id][source_id]`; `none` if no tunnel rules are given), `exact_match` and `flowdel`. -/
structure Ctx where
  table : Table
  allowTable : Nat
  forceTable : Nat
  highest : Nat
  meters : Dict Nat Nat := []
  exact : Bool := false
  port : Option Nat := none
  vlan : Option Nat := none
  tunnels : Option (Dict Nat Output) := none
  flowdel : Bool := false

/-- `push_vlan`, `faucet/valve_acl.py` 27-37, and `push_vlan_act`, `faucet/valve_of.py` 552-565. -/
def pushVlan (v : PushVid) : List Action :=
  [.pushVlan (v.ethType.getD 0x8100), .setField fVlanVid (vidPresent v.vid)]

/-- `groupadd_ff`, `faucet/valve_of.py` 984-996, for the buckets of a failover. -/
def failoverMsgs (gid : Nat) (ports : List Nat) : List OfMsg :=
  [.group { cmd := .delete, gid := some gid },
   .group { cmd := .add, gid := some gid, buckets := ports.map (fun p => [.output p]) }]

/-- The result of building an output: whether `output_port` is not `None`, actions, messages, instructions. -/
structure Out where
  port : Bool := false
  acts : List Action := []
  msgs : List OfMsg := []
  inst : List Inst := []

/-- One element of the list form, `faucet/valve_acl.py` 47-91, without tunnels. -/
def actFlat : OutAct → Out
  | .popVlans n => { acts := List.replicate n .popVlan }
  | .vlanVid v => { acts := pushVlan v }
  | .swapVid v => { acts := [.setField fVlanVid (vidPresent v)] }
  | .vlanVids vs => { acts := vs.flatMap pushVlan }
  | .setFields fs => { acts := fs.map (fun f => .setField f.1 f.2) }
  | .port n => { acts := [.output n] }
  | .ports ns => { acts := ns.map .output }
  | .failover g ns => { acts := [.group g], msgs := failoverMsgs g ns }
  | .tunnel _ => {}
  | .goto t => { inst := [.goto t] }

/-- One after the other. -/
def Out.append (a b : Out) : Out := ⟨a.port || b.port, a.acts ++ b.acts, a.msgs ++ b.msgs, a.inst ++ b.inst⟩

def Out.setPort (o : Out) (b : Bool) : Out := { o with port := b }
def Out.setMsgs (o : Out) (ms : List OfMsg) : Out := { o with msgs := ms }

/-- The `pop_vlans` of `rewrite_vlan`, `faucet/valve_acl.py` 98-100. -/
def popActs (d : OutDict) : List Action :=
  match d.popVlans with
  | some n => List.replicate n .popVlan
  | none => []

/-- `rewrite_vlan`, `faucet/valve_acl.py` 95-111. -/
def rewriteVlan (d : OutDict) : List Action :=
  popActs d ++
  (match d.vlanVid with
   | some v => pushVlan v
   | none =>
     match d.swapVid with
     | some v => [.setField fVlanVid (vidPresent v)]
     | none => (d.vlanVids.getD []).flatMap pushVlan)

/-- The dictionary form up to the failover, `faucet/valve_acl.py` 158-183. -/
def dictHead (d : OutDict) : Out :=
  { port := d.port.isSome || !(d.ports.getD []).isEmpty
    acts := rewriteVlan d ++ d.setFields.map (fun f => .setField f.1 f.2) ++ (d.port.toList).map .output ++
      (d.ports.getD []).map .output ++ (match d.failover with | some g => [.group g.1] | none => [])
    msgs := match d.failover with | some g => failoverMsgs g.1 g.2 | none => [] }

/-- The `goto` of the dictionary form, 194-195. -/
def dictGoto (d : OutDict) : Out := { inst := match d.goto with | some t => [.goto t] | none => [] }

/-- `build_output_actions` without tunnel rules, `faucet/valve_acl.py` 39-92, 152-196. In the list form `output_port` is
a list, which is never `None`. -/
def outFlat : Output → Out
  | .dict d => (dictHead d).append (dictGoto d)
  | .ordered l => (l.foldl (fun (o : Out) a => o.append (actFlat a)) {}).setPort true

/-- The tunnel part, `faucet/valve_acl.py` 78-86 and 184-193: the output rule of the tunnel is built. A tunnel without
rule is a `KeyError`. The messages of the tunnel are lost in the dictionary form (line 192 extends the wrong list);
`keep` says whether they are kept. -/
def tunnelOut (keep : Bool) (tunnels : Option (Dict Nat Output)) (t : Option Nat) : Option Out :=
  match tunnels, t with
  | some rules, some t =>
    if rules.isEmpty then some {}
    else (rules.get? t).map (fun o => ((outFlat o).setPort false).setMsgs (if keep then (outFlat o).msgs else []))
  | _, _ => some {}

/-- One element of the list form with tunnels. -/
def actOut (tunnels : Option (Dict Nat Output)) (a : OutAct) : Option Out :=
  match a with
  | .tunnel t => tunnelOut true tunnels (some t)
  | a => some (actFlat a)

/-- `build_output_actions`, `faucet/valve_acl.py` 152-196. -/
def buildOut (tunnels : Option (Dict Nat Output)) : Output → Option Out
  | .dict d => (tunnelOut false tunnels d.tunnel).map (fun t => ((dictHead d).append t).append (dictGoto d))
  | .ordered l =>
    (l.foldlM (fun (o : Out) a => (actOut tunnels a).map (fun x => o.append x)) {}).map (fun o => o.setPort true)

/-- `allow` after all, `faucet/valve_acl.py` 225-243. -/
def Actions.allows (a : Actions) : Bool := a.allow == some 1 || (a.allow == none && a.mirror.isSome)

/-- The meter, `faucet/valve_acl.py` 236-238; an unknown name is a `KeyError`. -/
def meterInst (c : Ctx) (a : Actions) : Option (List Inst) :=
  match a.meter with
  | some m => (c.meters.get? m).map (fun i => [.meter i])
  | none => some []

/-- The output, 244-256. -/
def outputOf (c : Ctx) (a : Actions) : Option Out :=
  match a.output with
  | some o => buildOut c.tunnels o
  | none => some {}

/-- `not allow and output_port is not None`, 259-260: the rest of the actions is skipped. -/
def skips (a : Actions) (o : Out) : Bool := !a.allows && o.port

/-- Where allowed packets go, 233-235. -/
def allowInst (c : Ctx) (a : Actions) : List Inst :=
  if a.force == some 1 then [.goto c.forceTable] else [.goto c.allowTable]

/-- Instructions, `faucet/valve_acl.py` 199-280, before the apply-actions are put last. -/
def gotoInst (c : Ctx) (a : Actions) (o : Out) : List Inst :=
  if skips a o then [] else if a.allows then allowInst c a else []

/-- The actions: mirror, output, connection tracking. -/
def applyActs (a : Actions) (o : Out) : List Action :=
  (a.mirror.toList).map .output ++ o.acts ++ (if skips a o then [] else (a.ct.toList).map .ct)

/-- Instructions and group messages of a rule, `build_acl_entry`, `faucet/valve_acl.py` 199-280. -/
def ruleInst (c : Ctx) (r : Rule) : Option (List Inst × List OfMsg) :=
  match r.actions with
  | none => some ([], [])
  | some a => (meterInst c a).bind (fun m => (outputOf c a).map (fun o =>
      (m ++ o.inst ++ gotoInst c a o ++ (if applyActs a o = [] then [] else [.apply (applyActs a o)]), o.msgs)))

/-- The match of a rule, `faucet/valve_acl.py` 266-276: port and VLAN overwrite those of the rule. -/
def withPort (port : Option Nat) (d : Dict Key Val) : Dict Key Val :=
  match port with
  | some n => d.set (.new fInPort) (.int n)
  | none => d

def withVlan (vlan : Option Nat) (d : Dict Key Val) : Dict Key Val :=
  match vlan with
  | some v => d.set (.new fVlanVid) (.int (vidPresent v))
  | none => d

def ruleMatch (enc : Enc) (c : Ctx) (r : Rule) : Option (List MatchItem) :=
  matchFromDict enc (withVlan c.vlan (withPort c.port r.fields))

/-- A flow of an ACL. -/
def aclFlow (t : Table) (items : List MatchItem) (prio : Nat) (inst : List Inst) (cookie : Option Nat) : FlowMod :=
  { cmd := .add, table := t.id, priority := prio, mtch := ⟨items, 0⟩, cookie := cookie.getD t.cookie,
    inst := trimInst inst }

/-- `build_rule_ofmsgs`, `faucet/valve_acl.py` 324-362. -/
def buildRule (enc : Enc) (c : Ctx) (prio : Nat) (r : Rule) : Option (List OfMsg) :=
  (ruleMatch enc c r).bind (fun items => (ruleInst c r).map (fun x =>
    let p := if c.exact then c.highest else prio
    x.2 ++ (if c.flowdel then [c.table.flowdel items p] else []) ++ [.flow (aclFlow c.table items p x.1 r.cookie)]))

/-- The inner loop of `build_acl_ofmsgs`, `faucet/valve_acl.py` 382-401: the priority goes down by one with every rule.
(It is a number without sign here. In Python it would become negative after `highest` rules, and the message could not
be sent.) -/
def buildRules (enc : Enc) (c : Ctx) (st : Nat × List OfMsg) (rules : List Rule) : Option (Nat × List OfMsg) :=
  rules.foldlM (fun st r => (buildRule enc c st.1 r).map (fun ms => (st.1 - 1, st.2 ++ ms))) st

/-- `build_acl_ofmsgs`, `faucet/valve_acl.py` 365-402. -/
def buildAcls (enc : Enc) (c : Ctx) (acls : List Acl) : Option (List OfMsg) :=
  (acls.foldlM (fun st acl => buildRules enc c st acl.rules) (c.highest, ([] : List OfMsg))).map (·.2)

/-! ## `ValveAclManager` -/

/-- The settings used: tables, next tables and `dp_acls`. -/
structure Mgr where
  portTable : Option Table := none
  vlanTable : Option Table := none
  egressTable : Option Table := none
  toVlan : Nat
  toClass : Nat
  toL2 : Nat
  toEgress : Nat
  meters : Dict Nat Nat := []
  dpAcls : List Acl := []

structure Port where
  number : Nat
  aclsIn : List Acl := []
  outputOnly : Bool := false
  dot1x : Bool := false
deriving DecidableEq, Repr

structure Vlan where
  vid : Nat
  aclsIn : List Acl := []
  aclsOut : List Acl := []
deriving DecidableEq, Repr

/-- `acl_priority`, `faucet/valve_acl.py` 452. -/
def aclPriority : Nat := filterPriority

/-- `port.acls_in[0].exact_match`. -/
def firstExact (acls : List Acl) : Bool := (acls.head?.map (·.exactMatch)).getD false

/-- `_port_acls_allowed`, 477-478: gives the table. -/
def portAclsAllowed (m : Mgr) (p : Port) : Option Table :=
  if m.dpAcls.isEmpty && !p.outputOnly then m.portTable else none

def portCtx (m : Mgr) (t : Table) (p : Port) : Ctx :=
  { table := t, allowTable := m.toVlan, forceTable := m.toL2, highest := aclPriority, meters := m.meters,
    exact := firstExact p.aclsIn, port := some p.number }

/-- The match on the ingress port. -/
def inPortItem (n : Nat) : MatchItem := ⟨fInPort, n, none⟩

/-- `add_port`, `faucet/valve_acl.py` 480-508. -/
def addPort (enc : Enc) (m : Mgr) (p : Port) : Option (List OfMsg) :=
  match portAclsAllowed m p with
  | none => some []
  | some t =>
    if p.aclsIn ≠ [] then buildAcls enc (portCtx m t p) p.aclsIn
    else if !p.dot1x then some [t.flowadd [inPortItem p.number] aclPriority [.goto m.toVlan]]
    else some []

/-- `del_port`, 510-515. -/
def delPort (m : Mgr) (p : Port) : List OfMsg :=
  match portAclsAllowed m p with
  | none => []
  | some t => [t.flowdel [inPortItem p.number] aclPriority]

/-- `cold_start_port`, 517-523. -/
def coldStartPort (enc : Enc) (m : Mgr) (p : Port) : Option (List OfMsg) :=
  (addPort enc m p).map (fun ms => delPort m p ++ ms)

/-- `initialise_tables`, 458-475. -/
def initTables (enc : Enc) (m : Mgr) : Option (List OfMsg) :=
  match m.portTable with
  | none => some []
  | some t =>
    if m.dpAcls = [] then some []
    else buildAcls enc { table := t, allowTable := m.toVlan, forceTable := m.toL2, highest := aclPriority, meters := m.meters }
      m.dpAcls

def vlanCtx (m : Mgr) (t : Table) (v : Vlan) : Ctx :=
  { table := t, allowTable := m.toClass, forceTable := m.toL2, highest := aclPriority, meters := m.meters,
    exact := firstExact v.aclsIn, vlan := some v.vid }

def egressCtx (m : Mgr) (t : Table) (v : Vlan) : Ctx :=
  { table := t, allowTable := m.toEgress, forceTable := m.toEgress, highest := aclPriority, meters := m.meters,
    exact := firstExact v.aclsOut, vlan := some v.vid }

/-- The match on the VLAN. -/
def vidItem (v : Nat) : MatchItem := ⟨fVlanVid, vidPresent v, none⟩

/-- The part of `add_vlan` for incoming packets, 536-549. -/
def addVlanIn (enc : Enc) (m : Mgr) (v : Vlan) : Option (List OfMsg) :=
  match m.vlanTable with
  | none => some []
  | some t => if v.aclsIn ≠ [] then buildAcls enc (vlanCtx m t v) v.aclsIn else some []

/-- The part of `add_vlan` for outgoing packets, 550-572. -/
def addVlanOut (enc : Enc) (m : Mgr) (v : Vlan) : Option (List OfMsg) :=
  match m.egressTable with
  | none => some []
  | some t =>
    if v.aclsOut ≠ [] then buildAcls enc (egressCtx m t v) v.aclsOut
    else some [t.flowadd [vidItem v.vid] aclPriority [.goto m.toEgress]]

/-- `add_vlan`, 533-572. -/
def addVlan (enc : Enc) (m : Mgr) (v : Vlan) : Option (List OfMsg) :=
  (addVlanIn enc m v).bind (fun a => (addVlanOut enc m v).map (fun b => a ++ b))

/-- `del_vlan`, 525-531. -/
def delVlan (m : Mgr) (v : Vlan) : List OfMsg :=
  (m.vlanTable.toList ++ m.egressTable.toList).map (fun t => t.flowdel [vidItem v.vid])

end Faucet.Acl
