import Verif.Base.Dict
import Verif.Base.Sort

/-!
# LACP: link aggregation on one switch, and the choice of switch for a bundle in a stack

`faucet/port.py` 24-76, 567-641; `faucet/valve_switch_standalone.py` 579-667, 1138-1375; `faucet/valve.py` 845-1004,
1483-1505; `faucet/valve_switch_stack.py` 420-471. Times are integers in any unit.
-/

namespace Faucet.Lacp

/-- `LACP_ACTOR_*`, `faucet/port.py` 44-60. -/
inductive Actor where
  | notConfigured | none | init | up | nosync
deriving DecidableEq, Repr

/-- `LACP_PORT_*`, `faucet/port.py` 62-76. -/
inductive Role where
  | notConfigured | unselected | selected | standby
deriving DecidableEq, Repr

/-- A LACP PDU as far as used: the partner's synchronization bit and all other content. -/
structure Pdu where
  sync : Bool
  rest : Nat := 0
deriving DecidableEq, Repr

/-- Settings of a port: bundle (`lacp`, 0 when not in one), `enabled`, `lacp_selected`, `lacp_unselected`,
`lacp_standby`, `lacp_collect_and_distribute`, `lacp_resp_interval`, and whether it has VLANs. -/
structure Conf where
  lacp : Nat := 0
  enabled : Bool := true
  selected : Bool := false
  unselected : Bool := false
  standby : Bool := false
  collect : Bool := false
  respInterval : Int := 1
  hasVlans : Bool := true
deriving DecidableEq, Repr

/-- A `Port`: settings and the dynamic state of `faucet/port.py` 268-281. -/
structure Port where
  conf : Conf := {}
  phys : Bool := false
  lacpUp : Bool := false
  updated : Option Int := Option.none
  lastPkt : Option Pdu := Option.none
  lastResp : Option Int := Option.none
  actor : Actor := .notConfigured
  role : Role := .notConfigured
deriving DecidableEq, Repr

/-- `running`, `faucet/port.py` 493-495. -/
def Port.running (p : Port) : Bool := p.conf.enabled && p.phys

/-- The new actor state in `lacp_actor_update`, `faucet/port.py` 581-597. -/
def Port.nextActor (p : Port) (lacpUp : Bool) (pkt : Option Pdu) (cold : Bool) : Actor :=
  if cold then .notConfigured
  else if !p.running then .none
  else if pkt = Option.none then .init
  else if lacpUp then .up
  else .nosync

/-- `lacp_actor_update`, `faucet/port.py` 567-598. -/
def Port.actorUpdate (p : Port) (lacpUp : Bool) (now : Option Int) (pkt : Option Pdu) (cold : Bool) : Port :=
  { p with lacpUp := lacpUp, updated := now, lastPkt := pkt, actor := p.nextActor lacpUp pkt cold }

/-- `lacp_port_update`, `faucet/port.py` 600-628. -/
def Port.roleUpdate (p : Port) (nominated cold : Bool) : Port :=
  { p with role :=
      if cold then .notConfigured
      else if p.conf.selected then .selected
      else if p.conf.unselected then .unselected
      else if nominated then .selected
      else if p.conf.standby then .standby
      else .unselected }

/-- `get_lacp_flags`, `faucet/port.py` 630-641: synchronization, collecting, distributing. -/
def Port.flags (p : Port) : Bool × Bool × Bool :=
  if p.conf.collect then (true, true, true)
  else if p.role = .standby then (true, false, false)
  else if p.role = .selected then (true, true, true)
  else (false, false, false)

/-- Messages to the switch. `addDrop`, `delDrop`: the high priority rule of the VLAN table that drops all from the port
(`enable_forwarding`, `disable_forwarding`, `faucet/valve_switch_standalone.py` 1168-1187). `addRules`, `delRules`: the
rules of the VLAN table that admit packets of the port (`add_port`, `del_port`, 600-667). `reply`: a LACP PDU sent with
its flags (`lacp_req_reply`, 1189-1254). -/
inductive Msg where
  | addDrop (p : Nat)
  | delDrop (p : Nat)
  | addRules (p : Nat)
  | delRules (p : Nat)
  | reply (p : Nat) (flags : Bool × Bool × Bool)
deriving DecidableEq, Repr

/-- `add_port`, `faucet/valve_switch_standalone.py` 600-628. -/
def addPort (c : Conf) (n : Nat) : List Msg := if c.hasVlans then [.addRules n] else []

/-- `del_port`, 642-667. -/
def delPort (c : Conf) (n : Nat) : List Msg := if c.hasVlans then [.delRules n] else []

/-- The last part of `lacp_update`, `faucet/valve.py` 992-1004, when a state changed. Flooding rules are left out. -/
def lacpMsgs (p : Port) (n : Nat) (cold : Bool) : List Msg :=
  if p.role = .selected ∧ p.actor = .up then [.delDrop n]
  else .addDrop n :: (if cold then [] else delPort p.conf n ++ addPort p.conf n)

/-- The state before the update proper in `lacp_update`, `faucet/valve.py` 980-987: reset at a cold start. -/
def lacpBase (p : Port) (lacpUp : Bool) (now : Option Int) (pkt : Option Pdu) (nominated cold : Bool) : Port :=
  if cold then (p.actorUpdate lacpUp now pkt true).roleUpdate nominated true else p

/-- The update proper, 988-993. -/
def lacpNext (p : Port) (lacpUp : Bool) (now : Option Int) (pkt : Option Pdu) (nominated : Bool) : Port :=
  (p.actorUpdate lacpUp now pkt false).roleUpdate nominated false

/-- Did a state change, `updated or select_updated`. -/
def changed (p q : Port) : Bool := decide (q.actor ≠ p.actor) || decide (q.role ≠ p.role)

/-- `lacp_update`, `faucet/valve.py` 958-1004. `nominated`: this switch is the one chosen for the bundle. -/
def lacpUpdate (p : Port) (n : Nat) (lacpUp : Bool) (now : Option Int) (pkt : Option Pdu) (nominated cold : Bool) :
    Port × List Msg :=
  let p0 := lacpBase p lacpUp now pkt nominated cold
  let p1 := lacpNext p0 lacpUp now pkt nominated
  (p1, if changed p0 p1 then lacpMsgs p1 n cold else [])

/-- One port of `ports_add`, `faucet/valve.py` 859-875. -/
def portAdd (p : Port) (n : Nat) (nominated cold : Bool) : Port × List Msg :=
  let p1 := { p with phys := true }
  if !p1.running then (p1, [])
  else if p1.conf.lacp ≠ 0 then
    let r := lacpUpdate p1 n false Option.none Option.none nominated cold
    (r.1, addPort p1.conf n ++ r.2)
  else (p1, addPort p1.conf n)

/-- One port of `ports_delete`, 910-928: a bundle member goes through `lacp_update` instead of having its rules
removed. -/
def portDelete (p : Port) (n : Nat) (nominated : Bool) : Port × List Msg :=
  let p1 := { p with phys := false }
  if p1.conf.lacp ≠ 0 then lacpUpdate p1 n false Option.none Option.none nominated false
  else (p1, delPort p1.conf n)

/-- A LACP PDU received on a port: `lacp_handler`, `faucet/valve_switch_standalone.py` 1306-1375. A reply is sent for a
new PDU, or when the last reply is older than `lacp_resp_interval`. (`lacp_passthrough` is left out.) -/
def pduReply (p : Port) (now : Int) (pkt : Pdu) : Bool :=
  decide (p.lastPkt ≠ some pkt) || p.lastResp.any (fun t => t ≠ 0 && decide (now - t > p.conf.respInterval))

def lacpHandler (p : Port) (n : Nat) (now : Int) (pkt : Pdu) (nominated : Bool) : Port × List Msg :=
  if p.conf.lacp ≠ 0 then
    let p1 := if pduReply p now pkt then { p with lastResp := some now } else p
    let r := lacpUpdate p1 n pkt.sync (some now) (some pkt) nominated false
    (r.1, (if pduReply p now pkt then [.reply n p.flags] else []) ++ r.2)
  else (p, [])

/-- One port in `_lacp_state_expire`, `faucet/valve.py` 1483-1505: `lags_up` are the ports with actor state UP. A missing
time (an exception in Python) is taken as not expired; `up_means_synced` shows that it never happens. -/
def portExpire (p : Port) (n : Nat) (timeout now : Int) (nominated : Bool) : Port × List Msg :=
  if p.conf.lacp ≠ 0 ∧ p.actor = .up ∧ p.updated.any (fun t => decide (now - t > timeout)) then
    lacpUpdate p n false (some now) Option.none nominated false
  else (p, [])

/-- A switch: whether connected, the ports, and the rules of the VLAN table by port. -/
structure Sw where
  running : Bool := false
  timeout : Int := 30
  ports : Dict Nat Port := []
  drop : List Nat := []
  rules : List Nat := []
  /-- `dyn_up_port_nos` of the switch, `faucet/valve.py` 531-541: also numbers of ports that are not configured. -/
  dynUp : List Nat := []
deriving DecidableEq, Repr

/-- What the switch does with a batch of messages: `valve_flowreorder` (`faucet/valve_of.py`) puts deletions first. The
deletion of the admission rules does not cover the drop rule, whose match is wider. -/
def applyBatch (s : Sw) (ms : List Msg) : Sw :=
  { s with
    drop := s.drop.filter (fun p => !ms.contains (.delDrop p)) ++
      ms.filterMap (fun m => match m with | .addDrop p => some p | _ => Option.none)
    rules := s.rules.filter (fun p => !ms.contains (.delRules p)) ++
      ms.filterMap (fun m => match m with | .addRules p => some p | _ => Option.none) }

/-- Apply a function to one port and send its messages. -/
def onPort (s : Sw) (n : Nat) (f : Port → Port × List Msg) : Sw :=
  match s.ports.get? n with
  | some p => applyBatch { s with ports := s.ports.set n (f p).1 } (f p).2
  | Option.none => s

/-- Apply a function to every port and send all messages as one batch. -/
def onPorts (s : Sw) (f : Nat → Port → Port × List Msg) : Sw :=
  applyBatch { s with ports := s.ports.map (fun e => (e.1, (f e.1 e.2).1)) } (s.ports.flatMap (fun e => (f e.1 e.2).2))

/-- What can happen. `nom` in an operation: the bundles for which this switch is nominated at that time (for a
standalone switch, every bundle; `get_lacp_dpid_nomination`). `reload`, `coldReload`: new settings are loaded; `own` has
the ports whose section of the configuration changes in a setting that `Conf` does not have, `changed` the ports that
change because of a VLAN or of mirroring. -/
inductive Op where
  | connect (ups : List Nat) (nom : List Nat)
  | disconnect (nom : List Nat)
  | portUp (n : Nat) (nom : List Nat)
  | portDown (n : Nat) (nom : List Nat)
  | pdu (n : Nat) (now : Int) (pkt : Pdu) (nom : List Nat)
  | expire (now : Int) (nom : List Nat)
  | reload (confs : Dict Nat Conf) (own changed nom : List Nat)
  | coldReload (timeout : Int) (confs : Dict Nat Conf) (own nom : List Nat)
deriving DecidableEq, Repr

/-- A port at connection: it is added if it is up (`faucet/valve.py` 486-517, 845-885). -/
def connPort (ups nom : List Nat) (n : Nat) (p : Port) : Port × List Msg :=
  if ups.contains n then portAdd p n (nom.contains p.conf.lacp) true else (p, [])

/-- A port at disconnection, `faucet/valve.py` 822-829. -/
def discPort (nom : List Nat) (n : Nat) (p : Port) : Port × List Msg := portDelete p n (nom.contains p.conf.lacp)

/-- A port at an expiry check. -/
def expPort (timeout now : Int) (nom : List Nat) (n : Nat) (p : Port) : Port × List Msg :=
  portExpire p n timeout now (nom.contains p.conf.lacp)

/-- All rules are removed (`_delete_all_valve_flows`, `faucet/valve.py` 382-389). -/
def flush (s : Sw) : Sw := { s with drop := [], rules := [] }

def setRunning (s : Sw) (b : Bool) : Sw := { s with running := b }

/-- `dyn_up_port_nos` of ports that are not configured stays. -/
def upElse (s : Sw) (keys : List Nat) : List Nat := s.dynUp.filter (fun n => !keys.contains n)

def setUp (s : Sw) (l : List Nat) : Sw := { s with dynUp := l }

/-- Is the section of port `n` the same in the new configuration (`same_confs` in `_get_conf_changes`, `faucet/dp.py`
1417-1431)? -/
def same (p : Port) (own : List Nat) (n : Nat) (c : Conf) : Bool := !own.contains n && decide (p.conf = c)

/-- The new object of port `n`: a port whose section is the same takes over all its dynamic state (`merge_dyn`,
`faucet/dp.py` 1439-1441 and `faucet/conf.py` 174-176), any other begins anew. -/
def merged (s : Sw) (own : List Nat) (n : Nat) (c : Conf) : Port :=
  match s.ports.get? n with
  | some p => if same p own n c then p else { conf := c }
  | Option.none => { conf := c }

/-- Is port `n`, in both configurations, changed (`changed_ports`)? -/
def isChanged (p : Port) (own changed : List Nat) (n : Nat) (c : Conf) : Bool := changed.contains n || !same p own n c

/-- What a warm reload does to an old port: it is deleted if it is no longer configured or changed
(`_apply_config_changes`, `faucet/valve.py` 1627-1630). -/
def reloadDel (confs : Dict Nat Conf) (own changed nom : List Nat) (n : Nat) (p : Port) : Port × List Msg :=
  match confs.get? n with
  | some c => if isChanged p own changed n c then portDelete p n (nom.contains p.conf.lacp) else (p, [])
  | Option.none => portDelete p n (nom.contains p.conf.lacp)

/-- The new object of a port once it has taken over whether the old one, perhaps deleted, is up (`Port.clone_dyn_state`,
`faucet/port.py` 298-306, called by `dp_init`, `faucet/valve.py` 195-202). -/
def cloned (s : Sw) (own changed : List Nat) (n : Nat) (c : Conf) : Port :=
  { merged s own n c with phys := (s.ports.get? n).any (fun p => p.phys && !isChanged p own changed n c) }

/-- What a warm reload does to a new port: a port that is added or changed is added if it is known to be up
(`_apply_config_changes`, 1658-1667). -/
def reloadAdd (s : Sw) (own changed nom : List Nat) (n : Nat) (c : Conf) : Port × List Msg :=
  if s.dynUp.contains n && (s.ports.get? n).all (fun p => isChanged p own changed n c) then
    portAdd (cloned s own changed n c) n (nom.contains c.lacp) false
  else (cloned s own changed n c, [])

/-- The messages of a warm reload, 1627-1667. -/
def reloadMsgs (s : Sw) (confs : Dict Nat Conf) (own changed nom : List Nat) : List Msg :=
  s.ports.flatMap (fun e => (reloadDel confs own changed nom e.1 e.2).2) ++
    confs.flatMap (fun e => (reloadAdd s own changed nom e.1 e.2).2)

/-- The ports after a warm reload. -/
def reloadPorts (s : Sw) (confs : Dict Nat Conf) (own changed nom : List Nat) : Sw :=
  { s with ports := confs.map (fun e => (e.1, (reloadAdd s own changed nom e.1 e.2).1)) }

/-- The new object of a port at a cold reload: no port is deleted. -/
def coldClone (s : Sw) (own : List Nat) (n : Nat) (c : Conf) : Port :=
  { merged s own n c with phys := (s.ports.get? n).any (fun p => p.phys) }

/-- The ports after a cold reload and the disconnection that it forces if the switch is connected (`faucet/valve.py`
1610-1618, 1703-1707, 820-829); the timeout of the switch may change only so. -/
def coldPorts (s : Sw) (timeout : Int) (confs : Dict Nat Conf) (own nom : List Nat) : Sw :=
  if s.running then
    { s with
      running := false
      timeout := timeout
      ports := confs.map (fun e => (e.1, (discPort nom e.1 (coldClone s own e.1 e.2)).1))
      dynUp := upElse s confs.keys }
  else { s with timeout := timeout, ports := confs.map (fun e => (e.1, coldClone s own e.1 e.2)) }

/-- A port comes up: nothing is done if it is taken to be up (`port_status_handler`, `faucet/valve.py` 668-685). -/
def statusUp (nom : List Nat) (n : Nat) (p : Port) : Port × List Msg :=
  if p.phys then (p, []) else portAdd p n (nom.contains p.conf.lacp) false

/-- A port goes down: nothing is done if it is taken to be down. -/
def statusDown (nom : List Nat) (n : Nat) (p : Port) : Port × List Msg :=
  if p.phys then portDelete p n (nom.contains p.conf.lacp) else (p, [])

/-- Connection removes all rules and adds the ports that are up. Disconnection deletes the ports but sends nothing.
While not connected no status, packet or expiry is handled, and a warm reload sends nothing (1708-1711). A connection
while already connected is excluded here, see `reconnect_defect`. (A port status that adds a port whose link is down,
`faucet/valve.py` 668-670, is not modelled.) -/
def step (s : Sw) : Op → Sw
  | .connect ups nom =>
    if s.running then s
    else setUp (setRunning (onPorts (flush s) (connPort ups nom)) true)
      (upElse s s.ports.keys ++ ups.filter (fun n => s.ports.keys.contains n))
  | .disconnect nom =>
    { s with running := false, ports := s.ports.map (fun e => (e.1, (discPort nom e.1 e.2).1)), dynUp := upElse s s.ports.keys }
  | .portUp n nom =>
    if s.running then
      setUp (onPort s n (statusUp nom n)) (n :: s.dynUp)
    else s
  | .portDown n nom =>
    if s.running then
      setUp (onPort s n (statusDown nom n)) (s.dynUp.filter (fun m => m != n))
    else s
  | .pdu n now pkt nom => if s.running then onPort s n (fun p => lacpHandler p n now pkt (nom.contains p.conf.lacp)) else s
  | .expire now nom => if s.running then onPorts s (expPort s.timeout now nom) else s
  | .reload confs own changed nom =>
    if s.running then applyBatch (reloadPorts s confs own changed nom) (reloadMsgs s confs own changed nom)
    else reloadPorts s confs own changed nom
  | .coldReload timeout confs own nom => coldPorts s timeout confs own nom

def run (s : Sw) (ops : List Op) : Sw := ops.foldl step s

/-- A switch with the given settings before anything happened. -/
def start (timeout : Int) (confs : Dict Nat Conf) : Sw :=
  { timeout := timeout, ports := confs.map (fun e => (e.1, { conf := e.2 })) }

/-! ## Which switch of a stack is chosen for a bundle -/

/-- A switch of the stack: `dp_id`, for every bundle the number of members up (`lags_up`) and without synchronization
(`lags_nosync`), and whether it is the root. Bundles without such members do not appear. -/
structure Dp where
  id : Nat
  up : Dict Nat Nat := []
  nosync : Dict Nat Nat := []
  root : Bool := false
deriving DecidableEq, Repr

/-- What `get_lacp_dpid_nomination` returns: nothing, a switch, or (in one case) a list, which no switch id equals. -/
inductive Nomination where
  | none
  | dp (id : Nat)
  | list (ids : List Nat)
deriving DecidableEq, Repr

/-- The entry for the members up, `faucet/valve_switch_stack.py` 442-444. -/
def countUp (lag : Nat) (acc : Dict Nat Nat) (d : Dp) : Dict Nat Nat :=
  match d.up.get? lag with
  | some k => acc.set d.id k
  | Option.none => acc

/-- The entries of one switch, 442-448. (The loop is over the members without synchronization of any bundle.) -/
def countDp (lag : Nat) (acc : Dict Nat Nat) (d : Dp) : Dict Nat Nat :=
  if d.nosync = [] ∨ (countUp lag acc d).has d.id then countUp lag acc d else (countUp lag acc d).set d.id 0

/-- The dictionary `ports`, 440-448, after all switches. -/
def portCounts (lag : Nat) (dps : List Dp) : Dict Nat Nat := dps.foldl (countDp lag) []

/-- `get_lacp_dpid_nomination`, `faucet/valve_switch_stack.py` 420-471: `self` and the other running switches of the
stack, in the order in which the set happens to be walked. (The count of ports without synchronization only orders
switches with equal counts and has no effect on the result.) -/
def nominate (lag : Nat) (hasOthers : Bool) (dps : List Dp) : Nomination :=
  if !hasOthers then .none
  else
    let ports := portCounts lag dps
    if ports = [] then .none
    else
      let best := ports.values.foldl max 0
      let most := ports.filterMap (fun e => if e.2 = best then some e.1 else Option.none)
      let root := (dps.reverse.find? (fun d => d.root)).map (·.id)
      match most with
      | [d] => .dp d
      | _ => if root.any (fun r => most.contains r) then .dp (root.getD 0) else .list (isort (fun a b => decide (a ≤ b)) most)

/-- The test in `lacp_update_port_selection_state`, `faucet/valve_switch_standalone.py` 1290: is this switch the one. -/
def isNominated (id : Nat) : Nomination → Bool
  | .dp d => d == id
  | _ => false

end Faucet.Lacp
