/-!
# OpenFlow 1.3 messages and flow-table semantics

The messages are those FAUCET builds with `os_ken`'s `ofproto_v1_3_parser` (`faucet/valve_of.py`,
`faucet/valve_table.py`). The switch that executes them is *not* FAUCET code: it is the environment, modelled
from the OpenFlow 1.3.5 specification (sections 6.4 and B.6). It belongs to the trusted base.
-/

namespace Faucet.OF

/-- `ofp.OFPTT_ALL`: wildcard table id. -/
def tableAll : Nat := 0xff

/-- One field of a match. `mask = none` is an exact match. Field names are numbered. -/
structure MatchItem where
  field : Nat
  value : Nat
  mask : Option Nat := none
deriving DecidableEq, Repr

/-- An `OFPMatch`. `items` is `match.items()`, which the library keeps in a canonical order.
`obj` is the identity of the Python object: whether two matches with equal items compare equal is up
to the library, so the model lets them be different keys. -/
structure Match where
  items : List MatchItem
  obj : Nat := 0
deriving DecidableEq, Repr

inductive Action where
  | output (port : Nat)
  | group (gid : Nat)
  | pushVlan (ethType : Nat)
  | popVlan
  | setField (field value : Nat)
  | decTtl
  /-- connection tracking (`NXActionCT`) -/
  | ct (n : Nat)
  | other (n : Nat)
deriving DecidableEq, Repr

inductive Inst where
  | apply (acts : List Action)
  | goto (table : Nat)
  | meter (mid : Nat)
  | writeMetadata (value mask : Nat)
deriving DecidableEq, Repr

inductive FlowCmd where
  | add | modifyStrict | delete | deleteStrict
deriving DecidableEq, Repr

/-- `OFPFlowMod`, built by `ValveTable.flowmod`, `faucet/valve_table.py` 228-268.
`outPort = none` is `OFPP_ANY`. -/
structure FlowMod where
  cmd : FlowCmd
  table : Nat
  priority : Nat
  mtch : Match
  cookie : Nat := 0
  inst : List Inst := []
  outPort : Option Nat := none
  hard : Nat := 0
  idle : Nat := 0
deriving DecidableEq, Repr

inductive ModCmd where
  | add | delete
deriving DecidableEq, Repr

/-- `OFPGroupMod`; `gid = none` is `OFPG_ALL`. -/
structure GroupMod where
  cmd : ModCmd
  gid : Option Nat
  buckets : List (List Action) := []
deriving DecidableEq, Repr

/-- `OFPMeterMod`; `mid = none` is `OFPM_ALL`. -/
structure MeterMod where
  cmd : ModCmd
  mid : Option Nat
  rate : Nat := 0
deriving DecidableEq, Repr

/-- The OpenFlow messages FAUCET sends. Those that are not about flows, groups or meters are opaque. -/
inductive OfMsg where
  | flow (f : FlowMod)
  | group (g : GroupMod)
  | meter (m : MeterMod)
  | config (n : Nat)
  | tfm (n : Nat)
  | packetOut (n : Nat)
  | barrier
  | other (n : Nat)
deriving DecidableEq, Repr

/-! ## The switch -/

/-- What identifies a flow in a switch: OF 1.3.5 5.2. -/
structure Slot where
  table : Nat
  priority : Nat
  items : List MatchItem
deriving DecidableEq, Repr

structure Body where
  inst : List Inst
  cookie : Nat := 0
  hard : Nat := 0
  idle : Nat := 0
deriving DecidableEq, Repr

/-- Flows, groups and meters of a switch. -/
structure Switch where
  flows : Slot → Option Body
  groups : Nat → Option (List (List Action))
  meters : Nat → Option Nat

/-- The flow-mod item `a` covers the flow's item `b`: `b` is at least as specific. -/
def MatchItem.covers (a b : MatchItem) : Bool :=
  a.field == b.field &&
  match a.mask, b.mask with
  | none, none => a.value == b.value
  | none, some _ => false
  | some m, none => b.value &&& m == a.value &&& m
  | some m, some m' => m' &&& m == m && b.value &&& m == a.value &&& m

/-- A non-strict flow mod with match `d` covers a flow with match `f`. -/
def coversItems (d f : List MatchItem) : Bool := d.all (fun a => f.any (fun b => a.covers b))

/-- The flow has an action that outputs to the port. -/
def Body.outputsTo (b : Body) (p : Nat) : Bool :=
  b.inst.any (fun i => match i with
    | .apply acts => acts.any (fun a => a == .output p)
    | _ => false)

/-- The flow has an action that goes to the group. -/
def Body.usesGroup (b : Body) (g : Nat) : Bool :=
  b.inst.any (fun i => match i with
    | .apply acts => acts.any (fun a => a == .group g)
    | _ => false)

/-- The `out_port` filter of a flow delete: OF 1.3.5 B.6.23. -/
def FlowMod.outPortOk (f : FlowMod) (b : Body) : Bool :=
  match f.outPort with
  | none => true
  | some p => b.outputsTo p

/-- Whether a flow mod applies to a table. -/
def FlowMod.tableOk (f : FlowMod) (t : Nat) : Bool := f.table == tableAll || f.table == t

/-- Whether a flow delete removes a flow. -/
def FlowMod.kills (f : FlowMod) (s : Slot) (b : Body) : Bool :=
  match f.cmd with
  | .delete => f.tableOk s.table && coversItems f.mtch.items s.items && f.outPortOk b
  | .deleteStrict => f.tableOk s.table && f.priority == s.priority && f.mtch.items == s.items && f.outPortOk b
  | _ => false

def FlowMod.slot (f : FlowMod) : Slot := ⟨f.table, f.priority, f.mtch.items⟩
def FlowMod.body (f : FlowMod) : Body := ⟨f.inst, f.cookie, f.hard, f.idle⟩

/-- The flow has an instruction that uses the meter. -/
def Body.usesMeter (b : Body) (g : Nat) : Bool := b.inst.any (fun i => i == .meter g)

/-- What a delete of any kind does to a flow. Deleting a group removes the flows that use it (OF 1.3.5 6.7), and so does deleting a
meter (OF 1.3.5 6.8). -/
def OfMsg.kills (m : OfMsg) (s : Slot) (b : Body) : Bool :=
  match m with
  | .flow f => f.kills s b
  | .group ⟨.delete, none, _⟩ => b.inst.any (fun i => match i with
      | .apply acts => acts.any (fun a => match a with | .group _ => true | _ => false)
      | _ => false)
  | .group ⟨.delete, some g, _⟩ => b.usesGroup g
  | .meter ⟨.delete, none, _⟩ => b.inst.any (fun i => match i with | .meter _ => true | _ => false)
  | .meter ⟨.delete, some g, _⟩ => b.usesMeter g
  | _ => false

/-- Effect of a message on the flow in one slot. -/
def OfMsg.onFlow (m : OfMsg) (s : Slot) (b : Option Body) : Option Body :=
  match m with
  | .flow f =>
    match f.cmd with
    | .add => if f.slot = s then some f.body else b
    | .modifyStrict => if f.slot = s then b.map (fun x => { x with inst := f.inst }) else b
    | _ => b.filter (fun x => !f.kills s x)
  | m => b.filter (fun x => !m.kills s x)

/-- Effect of a message on one group. Adding a group that exists is an error and changes nothing. -/
def OfMsg.onGroup (m : OfMsg) (g : Nat) (b : Option (List (List Action))) : Option (List (List Action)) :=
  match m with
  | .group ⟨.delete, none, _⟩ => none
  | .group ⟨.delete, some i, _⟩ => if i = g then none else b
  | .group ⟨.add, some i, bs⟩ => if i = g then (match b with | none => some bs | some x => some x) else b
  | _ => b

/-- Effect of a message on one meter. -/
def OfMsg.onMeter (m : OfMsg) (g : Nat) (b : Option Nat) : Option Nat :=
  match m with
  | .meter ⟨.delete, none, _⟩ => none
  | .meter ⟨.delete, some i, _⟩ => if i = g then none else b
  | .meter ⟨.add, some i, r⟩ => if i = g then (match b with | none => some r | some x => some x) else b
  | _ => b

/-- A switch executes one message. Barriers, configuration, table features and packet-outs do not change
the flow, group or meter tables. -/
def Switch.exec (sw : Switch) (m : OfMsg) : Switch where
  flows := fun s => m.onFlow s (sw.flows s)
  groups := fun g => m.onGroup g (sw.groups g)
  meters := fun g => m.onMeter g (sw.meters g)

/-- A switch executes a batch in order. -/
def Switch.execAll (sw : Switch) (ms : List OfMsg) : Switch := ms.foldl Switch.exec sw

end Faucet.OF
