import Verif.L2.DeliverySpec
import Verif.Base.Dict

/-!
# A controller with several switches

`Verif.L2` is about FAUCET and one standalone switch. Here FAUCET has any number of them, none of them in a stack: which valve
handles an event, on which valves a periodic service is called, what becomes of the messages they return, and to which switch
they are sent. Left out: reading of port descriptions on connection, changes of the configuration, and the services for LACP,
stacking and routing.
-/

namespace Faucet.Multi
open Faucet.OF Faucet.L2

/-- A valve: the configuration and the state of one switch. -/
structure Valve where
  cfg : Cfg
  ctl : Ctl

/-- `self.valves` of `ValvesManager`, `faucet/valves_manager.py` 93 and 301-318: by datapath ID, in the order of the
configuration file. -/
abbrev Valves := Dict Nat Valve

/-- OpenFlow messages by valve. -/
abbrev Out := Dict Nat (List OfMsg)

/-- Events that come from a switch. The others of `L2.Ev` are made by FAUCET. -/
def fromSwitch : Ev → Bool
  | .connect .. | .disconnect .. | .packetIn .. | .portUp .. | .portDown .. | .srcRemoved .. | .dstRemoved .. => true
  | .expire .. | .lag .. => false

/-- Which handlers call `_get_valve` with `require_running`: `packet_in_handler`, `port_status_handler` and
`flowremoved_handler`, `faucet/faucet.py` 283-296, 391-422. `_datapath_connect` and `_datapath_disconnect` (329-366) do not. -/
def requireRunning : Ev → Bool
  | .packetIn .. | .portUp .. | .portDown .. | .srcRemoved .. | .dstRemoved .. => true
  | _ => false

/-- `_get_valve`, `faucet/faucet.py` 229-248, and `_get_datapath_obj`, `faucet/valve_ryuapp.py`: an unknown switch has no valve
(its connection is closed), and neither has one that is not running if the handler requires it. -/
def getValve (vs : Valves) (id : Nat) (running : Bool) : Option Valve :=
  match vs.get? id with
  | none => none
  | some v => if running && !v.ctl.running then none else some v

/-- The handlers of `faucet/faucet.py` 283-422 with those of `faucet/valves_manager.py` 398-438 and 454-470: messages by valve
and new valves; `none` is an exception. Packet-in rate limits are not modelled. -/
def handle (vs : Valves) (id : Nat) (ev : Ev) : Option (Out × Valves) :=
  match getValve vs id (requireRunning ev) with
  | none => some ([], vs)
  | some v => (v.cfg.react v.ctl ev).map (fun r => ([(id, r.1)], vs.set id ⟨v.cfg, r.2⟩))

/-! ## Services -/

section Services
variable {σ μ : Type}

/-- One turn of the inner loop of `valve_flow_services`, `faucet/valves_manager.py` 383-390: if there are messages for the valve
already, they are dropped. -/
def keepOne (acc : Dict Nat (List μ)) (e : Nat × List μ) : Dict Nat (List μ) :=
  let acc := if acc.has e.1 then acc.set e.1 [] else acc
  acc.set e.1 ((acc.get? e.1).getD [] ++ e.2)

/-- `_other_running_valves`, `faucet/valves_manager.py` 393-398. -/
def otherRunning (isRunning : σ → Bool) (vs : Dict Nat σ) (id : Nat) : List Nat :=
  (vs.filter (fun e => e.1 != id && isRunning e.2)).map (·.1)

/-- One turn of the outer loop of `valve_flow_services`, 373-390. A service may change any valve. -/
def serveOne (isRunning : σ → Bool) (svc : Nat → List Nat → Dict Nat σ → Option (Dict Nat (List μ) × Dict Nat σ))
    (s : Dict Nat (List μ) × Dict Nat σ) (id : Nat) : Option (Dict Nat (List μ) × Dict Nat σ) :=
  (svc id (otherRunning isRunning s.2 id) s.2).map (fun r => (r.1.foldl keepOne s.1, r.2))

/-- `valve_flow_services`, `faucet/valves_manager.py` 370-391, without sending. -/
def serve (isRunning : σ → Bool) (svc : Nat → List Nat → Dict Nat σ → Option (Dict Nat (List μ) × Dict Nat σ)) (vs : Dict Nat σ) :
    Option (Dict Nat (List μ) × Dict Nat σ) :=
  vs.keys.foldlM (serveOne isRunning svc) ([], vs)

/-- A service that only reads and writes its own valve, and returns messages for it or nothing: `state_expire` without LACP,
`resolve_gateways`, `advertise`, `fast_advertise` (`faucet/valve.py`, `return {self: ...}` or `{}`). -/
def ownService (f : σ → Option (Option (List μ) × σ)) (id : Nat) (_ : List Nat) (vs : Dict Nat σ) :
    Option (Dict Nat (List μ) × Dict Nat σ) :=
  match vs.get? id with
  | none => some ([], vs)
  | some v => (f v).map (fun r => (match r.1 with | none => [] | some ms => [(id, ms)], vs.set id r.2))

end Services

/-- The loop over `self.dp.vlans` of `state_expire`, `faucet/valve.py` 1517-1534, of a running switch. -/
def expireVlans (c : Cfg) (now : Int) : List Nat → List OfMsg × Ctl → Option (List OfMsg × Ctl)
  | [], s => some s
  | vid :: vids, s => (c.react s.2 (.expire now vid)).bind (fun r => expireVlans c now vids (s.1 ++ r.1, r.2))

/-- `state_expire`, `faucet/valve.py` 1507-1534: no entry for the valve if nothing was put into the dict. (An entry that is empty
and no entry are the same to the sender.) -/
def stateExpire (now : Int) (v : Valve) : Option (Option (List OfMsg) × Valve) :=
  if v.ctl.running then
    (expireVlans v.cfg now (v.cfg.vlans.map (·.vid)) ([], v.ctl)).map (fun r => (some r.1, ⟨v.cfg, r.2⟩))
  else some (none, v)

/-- The service `state_expire` of all valves. -/
def expireAll (now : Int) (vs : Valves) : Option (Out × Valves) :=
  serve (fun v => v.ctl.running) (ownService (stateExpire now)) vs

/-! ## Sending -/

/-- Function update. -/
def put {α : Type} (f : Nat → α) (i : Nat) (a : α) : Nat → α := fun j => if j = i then a else f j

/-- `_send_flow_msgs`, `faucet/faucet.py` 211-227, and `send_flows`, `faucet/valve.py` 1822-1855: a switch that is not connected
gets nothing. -/
def sendOne (sh : List OfMsg → List OfMsg) (bar : Nat → Bool) (conn : Nat → Bool) (sw : Nat → Switch) (e : Nat × List OfMsg) :
    Option (Nat → Switch) :=
  if conn e.1 then (FlowReorder.reorder sh (bar e.1) e.2).map (fun out => put sw e.1 ((sw e.1).execAll out)) else some sw

/-- `_send_ofmsgs_by_valve`, `faucet/valves_manager.py` 337-340. -/
def sendAll (sh : List OfMsg → List OfMsg) (bar : Nat → Bool) (conn : Nat → Bool) (sw : Nat → Switch) (out : Out) :
    Option (Nat → Switch) :=
  out.foldlM (sendOne sh bar conn) sw

/-! ## Runs -/

structure Net where
  valves : Valves
  /-- the switches -/
  sw : Nat → Switch
  /-- connected to FAUCET (in `dpset`) -/
  conn : Nat → Bool
  /-- the packets that a switch ever sent to FAUCET -/
  seen : Nat → PacketIn → Prop
  /-- the ports that a switch last reported to be up -/
  up : Nat → Nat → Bool

/-- Connections after an event. FAUCET closes those of switches that it does not know. -/
def connAfter (vs : Valves) (conn : Nat → Bool) (id : Nat) : Ev → Nat → Bool
  | .connect .. => put conn id (vs.has id)
  | .disconnect .. => put conn id false
  | _ => conn

/-- When FAUCET starts: no switch is connected. Initial values of `faucet/dp.py` and of `Valve`, see `L2.Ctl.init`. -/
def startValves (cs : Dict Nat Cfg) : Valves := cs.map (fun e => (e.1, ⟨e.2, Ctl.init⟩))

/-- **Reachable states** of FAUCET with switches `cs`. At first each has any flows and groups. Then, in any order and any
interleaving: events of any switch, known to FAUCET or not; calls of the service that expires hosts; packets at any switch
(those that `ok` allows), whose copies for FAUCET may be delivered later, any number of times; timeouts of flows. -/
inductive Run (cs : Dict Nat Cfg) (ok : Nat → Pkt → Prop) : Net → Prop
  | start {sw0 : Nat → Switch} : Run cs ok ⟨startValves cs, sw0, fun _ => false, fun _ _ => False, fun _ _ => false⟩
  | event {s id ev out vs sh bar sw} : Run cs ok s → (∀ l, (sh l).Perm l) → fromSwitch ev = true →
      ((∃ now up lag, ev = .connect now up lag) ∨ s.conn id = true) →
      (∀ now k, ev = .packetIn now k → s.seen id k) →
      handle s.valves id ev = some (out, vs) → sendAll sh bar (connAfter s.valves s.conn id ev) s.sw out = some sw →
      Run cs ok ⟨vs, sw, connAfter s.valves s.conn id ev, s.seen, put s.up id (ev.upAfter (s.up id))⟩
  | expire {s now out vs sh bar sw} : Run cs ok s → (∀ l, (sh l).Perm l) → expireAll now s.valves = some (out, vs) →
      sendAll sh bar s.conn s.sw out = some sw → Run cs ok ⟨vs, sw, s.conn, s.seen, s.up⟩
  | packet {s id k es} : Run cs ok s → s.conn id = true → ok id k → Proc (s.sw id) 0 k es →
      Run cs ok ⟨s.valves, s.sw, s.conn,
        put s.seen id (fun x => s.seen id x ∨ ∃ e ∈ es, e.port = portController ∧ x = Emit.toPacketIn e), s.up⟩
  | timeout {s id sl b} : Run cs ok s → (s.sw id).flows sl = some b → b.hard ≠ 0 ∨ b.idle ≠ 0 →
      Run cs ok ⟨s.valves, put s.sw id ⟨fun x => if x = sl then none else (s.sw id).flows x, (s.sw id).groups, (s.sw id).meters⟩,
        s.conn, s.seen, s.up⟩

end Faucet.Multi
