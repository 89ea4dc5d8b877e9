import Verif.HostCache.Lemmas

/-!
# What FAUCET's metrics say about hosts

FAUCET shows, for Prometheus, how many hosts it knows on each VLAN and port (`vlan_hosts_learned`, `port_vlan_hosts_learned`), their
MAC addresses (`learned_macs`, numbered from 0 for each port, 0 for none) and the port of each host (`learned_l2_port`). The first
three are brought up to date every few seconds and when packets come in, for a port only if its hosts have changed; the last is
set and removed as hosts come and go. Here is one VLAN of one switch.
-/

namespace Faucet.Metrics

open HostCache (Port Entry Vlan cachedHost cachedHostsOnPort cachedHostsCountOnPort)

/-- A VLAN's host table, what FAUCET remembers of the metrics, and the metrics. -/
structure St where
  cache : Vlan := {}
  /-- `dyn_host_cache_stats_stale`, `faucet/vlan.py` 176 and 297; ports that are not in it count as stale (`faucet/valve.py` 1369) -/
  stale : Nat → Bool := fun _ => true
  /-- `_port_highwater` of the VLAN, `faucet/valve.py` 216-222 -/
  high : Nat → Nat := fun _ => 0
  /-- `vlan_hosts_learned` -/
  total : Nat := 0
  /-- `port_vlan_hosts_learned` -/
  count : Nat → Nat := fun _ => 0
  /-- `learned_macs` by port and `n`; a value that is not there is 0 here -/
  macs : Nat → Nat → Nat := fun _ _ => 0
  /-- `learned_l2_port` by MAC address -/
  l2port : Nat → Option Nat := fun _ => none

/-- What happens to the hosts of a VLAN, and to the metrics. -/
inductive Ev where
  /-- a host is learned or refreshed: `learn_host`, `faucet/valve.py` 1137-1163 -/
  | learn (m : Nat) (p : Port) (t : Int)
  /-- a rule for a host timed out on the switch: `_src_rule_expire`, `faucet/valve_switch_standalone.py` 1429-1438 -/
  | ruleExpired (m : Nat) (p : Port)
  /-- a port goes down: `_port_delete_flows_state`, `faucet/valve.py` 831-843 -/
  | portDown (p : Port)
  /-- hosts time out: `state_expire`, `faucet/valve.py` 1507-1534 -/
  | sweep (now timeout : Int)
  /-- the VLAN is deleted: `del_vlan`, `faucet/valve.py` 452-462 -/
  | delVlan
  /-- the switch connects: `cold_start`, `faucet/dp.py` 344-349 -/
  | coldStart
  /-- another configuration is applied: `dp_init`, `faucet/valve.py` 195-222; the new configuration has VLANs of its own, without hosts -/
  | reload
  /-- the metrics are brought up to date for these ports: `update_metrics`, `faucet/valve.py` 1336-1400 (all ports of the VLAN, or
  the port of a packet, not more often than the rate limit) -/
  | update (ps : List Port)

/-- Ports are marked as stale, `faucet/vlan.py` 324 and 339. -/
def mark (ns : List Nat) (stale : Nat → Bool) : Nat → Bool := fun n => ns.contains n || stale n

/-- `_update_expired_host`, `faucet/valve.py` 1536-1540, for each of the hosts. -/
def removeAll (es : List Entry) (l : Nat → Option Nat) : Nat → Option Nat :=
  fun m => if es.any (fun e => e.ethSrc == m) then none else l m

/-- The hosts that a sweep expires, `faucet/vlan.py` 372-387. -/
def expired (v : Vlan) (now timeout : Int) : List Entry :=
  if HostCache.due v now timeout then v.hostCache.values.filter (fun e => decide (e.cacheTime < now - timeout) && !e.port.permanentLearn)
  else []

/-- The values of `learned_macs` of a port after an update, `faucet/valve.py` 1373-1383, from the MAC addresses of its hosts, their
number when they were last shown, and the old values. -/
def showMacs (hosts : List Nat) (high : Nat) (old : Nat → Nat) : Nat → Nat := fun i =>
  if i < hosts.length then hosts.getD i 0
  else if hosts.length < high ∧ i < high + 1 then 0
  else old i

/-- `_update_port`, `faucet/valve.py` 1359-1384. `order` is that of `sorted`, which goes by Python's hashes. -/
def updatePort (order : List Entry → List Entry) (s : St) (p : Port) : St :=
  let n := cachedHostsCountOnPort s.cache p
  let s := { s with count := fun x => if x = p.number then n else s.count x }
  if s.high p.number = n ∧ s.stale p.number = false then s
  else
    { s with
      macs := fun x => if x = p.number then
        showMacs ((order (cachedHostsOnPort s.cache p)).map (·.ethSrc)) (s.high p.number) (s.macs p.number) else s.macs x
      high := fun x => if x = p.number then n else s.high x
      stale := fun x => if x = p.number then false else s.stale x }

/-- One event; `none` is an exception. The hosts of a port that goes down and those that time out are marked with the port in their
entry. -/
def step (order : List Entry → List Entry) (s : St) : Ev → Option St
  | .learn m p t => (HostCache.step s.cache (.learn m p t)).map (fun v =>
      { s with cache := v, stale := mark (if (cachedHost s.cache m).isNone then [p.number] else []) s.stale
               l2port := fun x => if x = m then some p.number else s.l2port x })
  | .ruleExpired m p =>
    match HostCache.cachedHostOnPort s.cache m p with
    | none => some s
    | some e => (HostCache.step s.cache (.forget m)).map (fun v => { s with cache := v, stale := mark [e.port.number] s.stale })
  | .portDown p => (HostCache.step s.cache (.clearPort p)).map (fun v =>
      { s with cache := v, stale := mark ((cachedHostsOnPort s.cache p).map (·.port.number)) s.stale
               l2port := removeAll (cachedHostsOnPort s.cache p) s.l2port })
  | .sweep now timeout => (HostCache.step s.cache (.sweep now timeout)).map (fun v =>
      { s with cache := v, stale := mark ((expired s.cache now timeout).map (·.port.number)) s.stale
               l2port := removeAll (expired s.cache now timeout) s.l2port })
  | .delVlan => some { s with cache := HostCache.resetCaches s.cache, stale := fun _ => true, l2port := removeAll s.cache.hostCache.values s.l2port }
  | .coldStart => some { s with cache := HostCache.resetCaches s.cache, stale := fun _ => true }
  | .reload => some { s with cache := {}, stale := fun _ => true, high := fun _ => 0 }
  | .update ps => some (ps.foldl (updatePort order) { s with total := HostCache.hostsCount s.cache })

def run (order : List Entry → List Entry) : St → List Ev → Option St
  | s, [] => some s
  | s, e :: es => (step order s e).bind (fun s' => run order s' es)

end Faucet.Metrics
