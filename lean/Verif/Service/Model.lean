import Verif.Actions.Model

/-!
# Periodic and housekeeping services

Event notifier (`faucet/faucet_event.py`), packet-in rate limiter (`faucet/valve.py`) and LLDP beacons (`faucet/dp.py`,
`faucet/valve.py`).
-/

namespace Faucet.Service

/-! ## Events -/

/-- `FaucetEventNotifier`: last event id and queue of event ids, oldest first (`faucet/faucet_event.py` 52-61). The queue
is an `eventlet.queue.Queue(120)`. `delivered` records the events read by the client. -/
structure Notifier where
  eventId : Nat := 0
  queue : List Nat := []
  delivered : List Nat := []
deriving DecidableEq, Repr

def queueSize : Nat := 120

/-- What can happen to the notifier. `notify ok`: an event (`ok = false`: its dictionary uses a header key, so the
assertion fails); `serve ok`: the client loop or `get_event` takes an event (`ok = false`: sending it fails). -/
inductive EvOp where
  | notify (ok : Bool)
  | serve (ok : Bool)
deriving DecidableEq, Repr

/-- `notify`, `faucet/faucet_event.py` 98-116. The id is counted before the assertion. -/
def Notifier.notify (n : Notifier) (ok : Bool) : Notifier :=
  let id := n.eventId + 1
  if ok then
    let q := if n.queue.length ≥ queueSize then n.queue.tail else n.queue
    { n with eventId := id, queue := q ++ [id] }
  else { n with eventId := id }

/-- One turn of `_loop`, 80-90, or `get_event`, 94-96: nothing happens while the queue is empty. -/
def Notifier.serve (n : Notifier) (ok : Bool) : Notifier :=
  match n.queue with
  | [] => n
  | e :: q => { n with queue := q, delivered := if ok then n.delivered ++ [e] else n.delivered }

def Notifier.step (n : Notifier) : EvOp → Notifier
  | .notify ok => n.notify ok
  | .serve ok => n.serve ok

def Notifier.run (n : Notifier) (ops : List EvOp) : Notifier := ops.foldl Notifier.step n

/-! ## Packet-in rate limit -/

/-- `_last_packet_in_sec` and `_packet_in_count_sec`: `faucet/valve.py` 154-155, 210-211. -/
structure Limiter where
  last : Option Nat := none
  count : Nat := 0
deriving DecidableEq, Repr

/-- `rate_limit_packet_ins`, `faucet/valve.py` 1099-1109; `n` is `ignore_learn_ins`, times are in any unit. `true`: the
packet is ignored. -/
def Limiter.packetIn (l : Limiter) (n now : Nat) : Limiter × Bool :=
  let c := (if l.last ≠ some now then 0 else l.count) + 1
  (⟨some now, c⟩, n ≠ 0 && c % n = 0)

/-- Decisions for a sequence of packet times. -/
def Limiter.run (l : Limiter) (n : Nat) : List Nat → List Bool
  | [] => []
  | t :: ts => (l.packetIn n t).2 :: (l.packetIn n t).1.run n ts

/-! ## LLDP beacons -/

/-- What the beacon service reads of a port. -/
structure BPort where
  number : Nat
  stack : Bool := false
  /-- `lldp_beacon_enabled()` -/
  beacon : Bool := true
  /-- `running()` -/
  running : Bool := true
  /-- `dyn_last_lldp_beacon_time` -/
  last : Option Nat := none
deriving DecidableEq, Repr

structure BCfg where
  sendInterval : Nat
  maxPerInterval : Nat
deriving DecidableEq, Repr

/-- `priority_ports`, `faucet/dp.py` 822-826. -/
def priorityPorts (ps : List BPort) : List BPort := ps.filter (fun p => p.stack && p.running && p.beacon)

/-- `dyn_last_lldp_beacon_time is None or ... < now - send_interval`. Times are not negative, so the comparison is
`last + send_interval < now`. -/
def BPort.due (p : BPort) (c : BCfg) (now : Nat) : Bool :=
  match p.last with
  | none => true
  | some t => t + c.sendInterval < now

/-- `nonpriority_ports` before the shuffle, `faucet/dp.py` 827-837. `lldp_beacon_ports` are the ports with
`lldp_beacon_enabled()` (806-807). -/
def otherPorts (ps : List BPort) (c : BCfg) (now : Nat) : List BPort :=
  ps.filter (fun p => (p.beacon && p.running && p.due c now) && !(p.stack && p.running && p.beacon))

/-- `lldp_beacon_send_ports`, `faucet/dp.py` 818-845. `shuffle` stands for `random.shuffle` and the order of sets. -/
def sendPorts (shuffle : List BPort → List BPort) (ps : List BPort) (c : BCfg) (now : Nat) : List BPort :=
  priorityPorts ps ++ (shuffle (otherPorts ps c now)).take c.maxPerInterval

/-- `_send_lldp_beacon_on_port` for all of them, `faucet/valve.py` 722-754: the time is noted on the port. -/
def noteSent (sent : List BPort) (now : Nat) (p : BPort) : BPort :=
  if sent.any (fun q => q.number == p.number) then { p with last := some now } else p

/-- TTL of a beacon, `faucet/valve.py` 724-728. -/
def beaconTtl (sendInterval : Nat) : Nat := min (sendInterval * 3) (2 ^ 16 - 1)

/-- State of the service: ports and `_last_lldp_advertise_sec`. -/
structure Beacons where
  ports : List BPort
  lastRound : Nat := 0
deriving DecidableEq, Repr

/-- What happens: a call of the service, or a port starting or stopping. -/
inductive BOp where
  | tick (now : Nat)
  | setRunning (port : Nat) (up : Bool)
deriving DecidableEq, Repr

/-- The beacon part of `fast_advertise`, `faucet/valve.py` 770-781; the port states change in between. Returns the ports
sent on. -/
def Beacons.step (shuffle : List BPort → List BPort) (c : BCfg) (s : Beacons) : BOp → Beacons × List BPort
  | .tick now =>
    if c.sendInterval = 0 ∨ s.lastRound + c.sendInterval ≤ now then
      let sent := sendPorts shuffle s.ports c now
      ({ ports := s.ports.map (noteSent sent now), lastRound := now }, sent)
    else (s, [])
  | .setRunning n up => ({ s with ports := s.ports.map (fun p => if p.number = n then { p with running := up } else p) }, [])

/-- Log of (time, port number, stack port) of everything sent. -/
def Beacons.run (shuffle : List BPort → List BPort) (c : BCfg) : Beacons → List BOp → Beacons × List (Nat × Nat × Bool)
  | s, [] => (s, [])
  | s, op :: ops =>
    let r := s.step shuffle c op
    let rest := Beacons.run shuffle c r.1 ops
    (rest.1, (match op with | .tick now => r.2.map (fun p => (now, p.number, p.stack)) | _ => []) ++ rest.2)

end Faucet.Service
