import Verif.Base.Dict

/-!
# Gauge: watchers that poll switches for statistics

Model of `/repo/faucet/gauge.py` 61-220, `/repo/faucet/gauge_pollers.py` 31-293 and the class hierarchy of
`/repo/faucet/watcher.py` and `/repo/faucet/gauge_prom.py`.

A switch is known by its datapath id, and a connection of a switch by a number of its own, so that a request names the
connection it is sent on.  A poller's thread is the time at which it wakes; threads wake when their time has come, in any
order and possibly late.  What watchers do with replies (files, Prometheus) is in `Verif.Gauge.Prom`; here a reply is
passed to a watcher or is not.
-/

namespace Faucet.Gauge

/-- The types of watchers, watcher_conf.py 27-165, and of events, gauge.py 194-199. -/
inductive Kind where
  | portState | portStats | flowTable | meterStats
deriving DecidableEq, Repr

/-- A `WatcherConf`: one for each switch and database of a watcher, config_parser.py 343-379.  `prom` is
`db_type == "prometheus"`. -/
structure WConf where
  dp : Nat
  kind : Kind
  interval : Nat := 30
  prom : Bool := false
deriving DecidableEq, Repr

/-- The thread of a poller: when it wakes (`none` if it has died of an exception), and whether it has sent a request. -/
structure Thread where
  due : Option Nat
  sent : Bool
deriving DecidableEq, Repr

/-- A poller, gauge_pollers.py 34-43, 160-164.  `uid` tells pollers apart. -/
structure Watcher where
  uid : Nat
  conf : WConf
  conn : Option Nat := none
  running : Bool := false
  thread : Option Thread := none
  pending : Bool := false
deriving DecidableEq, Repr

/-- Whether the class is a `GaugeThreadPoller`: all but `GaugePortStatePoller`, gauge_pollers.py 283. -/
def Kind.polls : Kind → Bool
  | .portState => false
  | _ => true

/-- The request that `send_req` sends.  `GaugeMeterStatsPrometheusPoller` is a `GaugePortStatsPoller`, gauge_prom.py 143, and
so asks for port statistics. -/
def WConf.asks (c : WConf) : Kind :=
  match c.kind, c.prom with
  | .meterStats, true => .portStats
  | k, _ => k

/-- `stop`, gauge_pollers.py 60-63 and 173-178. -/
def Watcher.stop (w : Watcher) : Watcher := { w with running := false, thread := none }

/-- The random first delay, gauge_pollers.py 190: `random.randint(1, interval)` raises an exception if there is no such
number, and the thread dies. -/
def firstWake (interval now delay : Nat) : Option Nat := if interval = 0 then none else some (now + (1 + delay % interval))

/-- `start`, gauge_pollers.py 53-58 and 166-171. -/
def Watcher.start (w : Watcher) (conn now delay : Nat) (active : Bool) : Watcher :=
  if w.conf.kind.polls then
    { w.stop with conn := some conn, running := true,
                  thread := if active then some ⟨firstWake w.conf.interval now delay, false⟩ else none }
  else { w with conn := some conn, running := true }

/-- `is_active`, gauge_pollers.py 69-72 and 180-181. -/
def Watcher.isActive (w : Watcher) : Bool := w.thread.isSome

/-- The state: watchers in the order of the configuration, watchers of earlier configurations, `dpset` (which switch is connected,
and which connection it is), and `dp_status`. -/
structure State where
  ws : List Watcher
  old : List Watcher
  up : Nat → Option Nat
  /-- the gauge `dp_status`: `none` if there is no sample for the switch -/
  status : Nat → Option Bool

/-- What Gauge does. -/
inductive Out where
  /-- a request of this kind is sent on a connection -/
  | ask (conn : Nat) (kind : Kind)
  /-- the watcher reports that there was no response -/
  | noResponse (uid : Nat)
  /-- a reply is passed to the watcher -/
  | record (uid : Nat)
deriving DecidableEq, Repr

/-- Start the watchers of one switch, `_start_watchers`, gauge.py 143-155: the first of each type is active.  `seen` are the
types met so far.  (The port status messages made up in 150-155 are left out.) -/
def startAll (dp conn now : Nat) (delay : Nat → Nat) : List Kind → List Watcher → List Watcher
  | _, [] => []
  | seen, w :: ws =>
    if w.conf.dp = dp then
      w.start conn now (delay w.uid) (!seen.contains w.conf.kind) :: startAll dp conn now delay (w.conf.kind :: seen) ws
    else w :: startAll dp conn now delay seen ws

/-- `if watcher.is_active(): watcher.stop()`, gauge.py 178-179. -/
def Watcher.stopActive (w : Watcher) : Watcher := if w.isActive then w.stop else w

/-- `_stop_watchers` for one switch, gauge.py 173-179. -/
def stopAll (dp : Nat) (ws : List Watcher) : List Watcher := ws.map (fun w => if w.conf.dp = dp then w.stopActive else w)

/-- New watchers, with numbers that are not in use. -/
def fresh (base : Nat) : List WConf → List Watcher
  | [] => []
  | c :: cs => { uid := base, conf := c } :: fresh (base + 1) cs

/-- Start the watchers of all switches that are connected, gauge.py 105-108; `dps` are the switches of the new watchers. -/
def startUp (up : Nat → Option Nat) (now : Nat) (delay : Nat → Nat) : List Nat → List Watcher → List Watcher
  | [], ws => ws
  | dp :: dps, ws =>
    match up dp with
    | some conn => startUp up now delay dps (startAll dp conn now delay [] ws)
    | none => startUp up now delay dps ws

/-- The keys of `new_watchers`, gauge.py 94-102. -/
def dpsOf : List WConf → List Nat
  | [] => []
  | c :: cs => c.dp :: (dpsOf cs).filter (fun d => d != c.dp)

/-- `report_dp_status`, gauge_pollers.py 45-51, when watchers of a switch are started or stopped; nothing is reported of a
switch without watchers. -/
def report (ws : List Watcher) (dp : Nat) (b : Bool) (st : Nat → Option Bool) : Nat → Option Bool :=
  if ws.any (fun w => w.conf.dp == dp) then fun d => if d = dp then some b else st d else st

/-- Reports when old watchers are stopped, gauge.py 92-93, 177. -/
def reportDown : List Watcher → (Nat → Option Bool) → Nat → Option Bool
  | [], st => st
  | w :: ws, st => reportDown ws (fun d => if d = w.conf.dp then some false else st d)

/-- Reports when the watchers of connected switches are started, gauge.py 105-108, 148. -/
def reportUp (up : Nat → Option Nat) : List Nat → (Nat → Option Bool) → Nat → Option Bool
  | [], st => st
  | dp :: dps, st => reportUp up dps (if (up dp).isSome then fun d => if d = dp then some true else st d else st)

/-- `_load_config`, gauge.py 71-118, with a valid configuration. -/
def State.load (s : State) (cs : List WConf) (now : Nat) (delay : Nat → Nat) : State where
  ws := startUp s.up now delay (dpsOf cs) (fresh (s.ws.length + s.old.length) cs)
  old := s.old ++ s.ws.map Watcher.stopActive
  up := s.up
  status := reportUp s.up (dpsOf cs) (reportDown s.ws s.status)

/-- `send_req`, gauge_pollers.py 206-209, 217-220, 244-250. -/
def Watcher.sends (w : Watcher) : List Out :=
  match w.conn with
  | some c => [.ask c w.conf.asks]
  | none => []

/-- The thread of a watcher wakes, gauge_pollers.py 183-196: it has slept for the first time, or after a request. -/
def Watcher.wake (w : Watcher) (now : Nat) : Watcher × List Out :=
  match w.thread with
  | some ⟨some due, sent⟩ =>
    if due ≤ now then
      ({ w with pending := true, thread := some ⟨some (now + w.conf.interval), true⟩ },
        (if sent && w.pending then [.noResponse w.uid] else []) ++ w.sends)
    else (w, [])
  | _ => (w, [])

/-- Of the watchers, the one with the number wakes. -/
def wakeIn (uid now : Nat) : List Watcher → List Watcher × List Out
  | [] => ([], [])
  | w :: ws =>
    if w.uid = uid then ((w.wake now).1 :: (wakeIn uid now ws).1, (w.wake now).2 ++ (wakeIn uid now ws).2)
    else (w :: (wakeIn uid now ws).1, (wakeIn uid now ws).2)

/-- `update`, gauge_pollers.py 90-109. -/
def Watcher.update (w : Watcher) : Watcher := if w.running then { w with pending := false } else w

/-- `_update_watcher`, gauge.py 121-128. -/
def replyIn (dp : Nat) (kind : Kind) (ws : List Watcher) : List Watcher × List Out :=
  (ws.map (fun w => if w.conf.dp = dp ∧ w.conf.kind = kind then w.update else w),
    (ws.filter (fun w => w.conf.dp == dp && w.conf.kind == kind && w.running)).map (fun w => .record w.uid))

/-- Things that happen to Gauge. -/
inductive Event where
  /-- a switch connects -/
  | connect (dp conn now : Nat) (delay : Nat → Nat)
  /-- a switch disconnects -/
  | disconnect (dp : Nat)
  /-- the thread of a poller is scheduled -/
  | wake (uid now : Nat)
  /-- a reply or notification of a switch arrives -/
  | reply (dp : Nat) (kind : Kind)
  /-- the configuration is read; `none` if it is invalid, gauge.py 87-90 -/
  | load (cs : Option (List WConf)) (now : Nat) (delay : Nat → Nat)

/-- A switch is in `dpset` or no longer. -/
def setUp (up : Nat → Option Nat) (dp : Nat) (c : Option Nat) : Nat → Option Nat := fun d => if d = dp then c else up d

/-- One event: `_datapath_connect` 158-170, `_datapath_disconnect` 182-192, `update_watcher_handler` 214-220, `reload_config`
137-140.  A switch without watchers is ignored (`_get_watchers`), which starts and stops nothing either. -/
def State.step (s : State) : Event → State × List Out
  | .connect dp conn now delay => 
    (⟨startAll dp conn now delay [] s.ws, s.old, setUp s.up dp (some conn), report s.ws dp true s.status⟩, [])
  | .disconnect dp => (⟨stopAll dp s.ws, s.old, setUp s.up dp none, report s.ws dp false s.status⟩, [])
  | .wake uid now =>
    (⟨(wakeIn uid now s.ws).1, (wakeIn uid now s.old).1, s.up, s.status⟩,
      (wakeIn uid now s.ws).2 ++ (wakeIn uid now s.old).2)
  | .reply dp kind => (⟨(replyIn dp kind s.ws).1, s.old, s.up, s.status⟩, (replyIn dp kind s.ws).2)
  | .load (some cs) now delay => (s.load cs now delay, [])
  | .load none _ _ => (s, [])

/-- Gauge before its configuration is read. -/
def init : State where
  ws := []
  old := []
  up := fun _ => none
  status := fun _ => none

def run (s : State) (es : List Event) : State := es.foldl (fun s e => (s.step e).1) s

end Faucet.Gauge
