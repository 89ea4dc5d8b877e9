import Verif.FlowReorder.Props

/-!
# Meters of a switch

The meters that ACL rules use, and the limits on packets to FAUCET, from the configuration to the switch: cold starts
(`faucet/valve.py` 382-432), reloads (`faucet/valve.py` 1572-1712, `faucet/valve_acl.py` 845-867, `faucet/dp.py` 1681-1700), and the
switch's meter table. Messages that are not about meters are a parameter of each event, and so is the order `valve_flowreorder` gets
from `random.shuffle`.
-/

namespace Faucet.Meters
open Faucet.OF Faucet.FlowReorder

/-- `Meter`, `faucet/meter.py` 23-44. Simplified: flags and bands are one number, the rate. -/
structure Meter where
  mid : Nat
  rate : Nat
deriving DecidableEq, Repr

/-- `OFPM_SLOWPATH` (OpenFlow 1.3.5, 7.3.4.5), used in `faucet/valve_of.py` 1053-1061. -/
def ofpmSlowpath : Nat := 0xfffffffd

/-- `OFPM_CONTROLLER` (OpenFlow 1.3.5, 7.3.4.5), used in `faucet/valve_of.py` 1032-1040. -/
def ofpmController : Nat := 0xfffffffe

/-- What the configuration of a switch says about meters. -/
structure Cfg where
  /-- `dp.meters` as `resolve_acls` leaves it (`faucet/dp.py` 1262-1264): those an ACL of the switch uses, by name. -/
  meters : List (Nat × Meter)
  /-- `dp.all_meters` is not empty, `faucet/dp.py` 1262. -/
  defined : Bool
  /-- `packetin_pps`, `slowpath_pps`; 0 when not set. -/
  packetin : Nat := 0
  slowpath : Nat := 0
deriving DecidableEq, Repr

/-- `meteradd`, `faucet/valve_of.py` 1005-1029. -/
def addMsg (m : Meter) : OfMsg := .meter ⟨.add, some m.mid, m.rate⟩

/-- `meterdel()`, `faucet/valve_of.py` 1000-1002, with the default for `meter_id`: `OFPM_ALL`. -/
def delAll : OfMsg := .meter ⟨.delete, none, 0⟩

/-- `meterdel(deleted_meter_id)` as `del_meters` (`faucet/valve_acl.py` 855-867) calls it: the first argument of `meterdel` is the
datapath, so the meter id is not given, and is `OFPM_ALL`. -/
def delMsg (_ : Nat) : OfMsg := delAll

/-- The meter messages of a cold start: `_delete_all_valve_flows`, `_add_packetin_meter`, `_add_slowpath_meter` and
`_add_default_flows`, `faucet/valve.py` 382-433. -/
def coldMsgs (c : Cfg) : List OfMsg :=
  (if c.defined || c.packetin != 0 || c.slowpath != 0 then [delAll] else []) ++
  (if c.packetin != 0 then [addMsg ⟨ofpmController, c.packetin⟩] else []) ++
  (if c.slowpath != 0 then [addMsg ⟨ofpmSlowpath, c.slowpath⟩] else []) ++
  c.meters.map (fun nm => addMsg nm.2)

/-- The setting of a meter by its name. -/
def find (ms : List (Nat × Meter)) (n : Nat) : Option Meter := ms.lookup n

/-- `_get_conf_changes` for meters, `faucet/dp.py` 1404-1461: `deleted_confs`. -/
def deleted (old new : Cfg) : List (Nat × Meter) := old.meters.filter (fun nm => (find new.meters nm.1).isNone)

/-- ... `changed_confs`, by their old settings. -/
def changedOld (old new : Cfg) : List (Nat × Meter) :=
  old.meters.filter (fun nm => match find new.meters nm.1 with | some m => decide (nm.2 ≠ m) | none => false)

/-- ... `added_confs`. -/
def added (old new : Cfg) : List (Nat × Meter) := new.meters.filter (fun nm => (find old.meters nm.1).isNone)

/-- ... `changed_confs`, by their new settings. -/
def changedNew (old new : Cfg) : List (Nat × Meter) :=
  new.meters.filter (fun nm => match find old.meters nm.1 with | some m => decide (m ≠ nm.2) | none => false)

/-- The meter messages of a warm reload, `faucet/valve.py` 1639-1657: `del_meters` with the old configuration, `add_meters` with the
new one. Simplified: the sets are lists in the order of the configuration; there is an ACL manager (there is one when the switch has
ACLs, and meters in use are used by ACLs). -/
def warmMsgs (old new : Cfg) : List OfMsg :=
  (deleted old new ++ changedOld old new).map (fun nm => delMsg nm.2.mid) ++
  (added old new ++ changedNew old new).map (fun nm => addMsg nm.2)

/-- What else goes into a batch with the meter messages, and how `valve_flowreorder` shuffles it. -/
structure Extra where
  sh : List OfMsg → List OfMsg
  perm : ∀ l, (sh l).Perm l
  bar : Bool
  others : List OfMsg
  quiet : ∀ m ∈ others, ∀ x, m ≠ .meter x

/-- `prepare_send_flows` and `send_flows`, `faucet/valve.py` 1822-1860, to a switch that carries out what it is sent. `none` when
`valve_flowreorder` raises. -/
def send (e : Extra) (sw : Switch) (ms : List OfMsg) : Option Switch := (reorder e.sh e.bar (ms ++ e.others)).map sw.execAll

inductive Ev where
  /-- The switch connects: `datapath_connect`, `faucet/valve.py` 804-820. -/
  | connect (e : Extra)
  /-- It disconnects: `datapath_disconnect`, `faucet/valve.py` 822-840. -/
  | disconnect
  /-- It loses its tables, and its connection. -/
  | restart
  /-- A reload; `other` when something else than meters makes it a cold start. -/
  | reload (new : Cfg) (other : Bool) (e : Extra)
  /-- Any other messages to the switch. -/
  | msgs (e : Extra)

structure St where
  cfg : Cfg
  /-- `dp.dyn_running`. -/
  running : Bool
  sw : Switch

/-- Is the reload a cold start? The limits on packets to FAUCET are settings of the switch, which ask for one
(`faucet/dp.py` 1731-1737); meters do not: with ACLs that begin or cease to use meters the tables are the same
(`_pipeline_change`, `faucet/valve.py` 1558-1570). -/
def isCold (old new : Cfg) (other : Bool) : Bool := other || old.packetin != new.packetin || old.slowpath != new.slowpath

/-- One event. `reload`: `reload_config` and `_apply_config_changes`, `faucet/valve.py` 1572-1712. A cold start drops the connection;
a switch that is not running is sent nothing. -/
def step (s : St) : Ev → Option St
  | .connect e => (send e s.sw (coldMsgs s.cfg)).map (fun sw => ⟨s.cfg, true, sw⟩)
  | .disconnect => some { s with running := false }
  | .restart => some ⟨s.cfg, false, ⟨fun _ => none, fun _ => none, fun _ => none⟩⟩
  | .reload new other e =>
    if isCold s.cfg new other then some { s with cfg := new, running := false }
    else if s.running then (send e s.sw (warmMsgs s.cfg new)).map (fun sw => ⟨new, true, sw⟩)
    else some { s with cfg := new }
  | .msgs e => if s.running then (send e s.sw []).map (fun sw => { s with sw := sw }) else some s

/-- A history. -/
def run (s : St) : List Ev → Option St
  | [] => some s
  | e :: h => (step s e).bind (fun s' => run s' h)

/-! ## Specification -/

/-- The limits a configuration asks for: meter `id` with this rate. -/
def Asks (c : Cfg) (id rate : Nat) : Prop :=
  (id = 0xfffffffe ∧ c.packetin ≠ 0 ∧ rate = c.packetin) ∨ (id = 0xfffffffd ∧ c.slowpath ≠ 0 ∧ rate = c.slowpath) ∨
  ∃ n m, (n, m) ∈ c.meters ∧ m.mid = id ∧ m.rate = rate

/-- A configuration: meters have different names and ids, ids are at most the largest there is (`faucet/meter.py` 48-54), and those in
use are defined. That the ids differ is not checked by the code. -/
structure Valid (c : Cfg) : Prop where
  names : (c.meters.map (·.1)).Nodup
  ids : (c.meters.map (·.2.mid)).Nodup
  range : ∀ nm ∈ c.meters, nm.2.mid ≤ 4294901760
  defd : c.meters ≠ [] → c.defined = true

/-- The configuration after a history: the last one loaded. -/
def cfgAfter (c : Cfg) : List Ev → Cfg
  | [] => c
  | .reload new _ _ :: h => cfgAfter new h
  | _ :: h => cfgAfter c h

/-- It is the switch's last connection. -/
def Last (h : List Ev) : Prop := ∀ e, .connect e ∉ h

end Faucet.Meters
