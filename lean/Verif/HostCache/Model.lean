import Verif.Base.Dict

/-!
# VLAN host cache (`faucet/vlan.py`)

Model of the per-VLAN table of learned hosts, with both of its indices and the "oldest host" shortcut.
-/

namespace Faucet.HostCache

/-- The configuration of a port that learning looks at: `faucet/port.py` 82-158 (`number`,
`permanent_learn`, `loop_protect`, `lacp`, `hairpin`, `hairpin_unicast`, `max_hosts`).
Python compares ports by a hash of their configuration (`faucet/conf.py` 268-272); ports of one
datapath have distinct numbers, so the model compares them by `number`. -/
structure Port where
  number : Nat
  permanentLearn : Bool := false
  loopProtect : Bool := false
  /-- LACP bundle id, `0` means none -/
  lacp : Nat := 0
  hairpin : Bool := false
  hairpinUnicast : Bool := false
  /-- `0` means no limit -/
  maxHosts : Nat := 0
deriving DecidableEq, Repr

/-- `HostCacheEntry`, `faucet/vlan.py` 51-80. `ethSrc` is the MAC as an integer. -/
structure Entry where
  ethSrc : Nat
  port : Port
  cacheTime : Int
deriving DecidableEq, Repr

/-- Identity of an entry in a Python set: `HostCacheEntry.__eq__` / `__hash__`, `faucet/vlan.py` 67-77.
The Python code compares `hash((eth_src_int, port.number))`; the model assumes that hash is collision free. -/
def Entry.key (e : Entry) : Nat × Nat := (e.ethSrc, e.port.number)

/-- The dynamic host state of a `VLAN`: `dyn_host_cache`, `dyn_host_cache_by_port`,
`dyn_oldest_host_time`, `faucet/vlan.py` 174-182. -/
structure Vlan where
  hostCache : Dict Nat Entry := []
  byPort : Dict Nat (List Entry) := []
  oldest : Option Int := none
deriving Repr

/-- `set.remove(entry)`: `none` is Python's `KeyError`. -/
def setRemove (s : List Entry) (e : Entry) : Option (List Entry) :=
  if s.any (fun x => x.key == e.key) then some (s.filter (fun x => x.key != e.key)) else none

/-- `set.add(entry)`: an equal element that is already there stays. -/
def setAdd (s : List Entry) (e : Entry) : List Entry :=
  if s.any (fun x => x.key == e.key) then s else s ++ [e]

/-- `VLAN.cached_host`, `faucet/vlan.py` 356-358. -/
def cachedHost (v : Vlan) (m : Nat) : Option Entry := v.hostCache.get? m

/-- `VLAN.cached_hosts_on_port`, `faucet/vlan.py` 343-347. -/
def cachedHostsOnPort (v : Vlan) (p : Port) : List Entry :=
  match v.byPort.get? p.number with
  | some s => s
  | none => []

/-- `VLAN.cached_hosts_count_on_port`, `faucet/vlan.py` 349-354. -/
def cachedHostsCountOnPort (v : Vlan) (p : Port) : Nat :=
  match v.byPort.get? p.number with
  | some s => s.length
  | none => 0

/-- `VLAN.hosts_count`, `faucet/vlan.py` 479-481. -/
def hostsCount (v : Vlan) : Nat := v.hostCache.length

/-- `VLAN.cached_host_on_port`, `faucet/vlan.py` 360-365. -/
def cachedHostOnPort (v : Vlan) (m : Nat) (p : Port) : Option Entry :=
  match cachedHost v m with
  | some e => if p.number = e.port.number then some e else none
  | none => none

/-- Lines 321-323 of `faucet/vlan.py`: take an existing entry out of its port's set. `none` is a `KeyError`. -/
def unlinkOld (v : Vlan) (m : Nat) : Option (Dict Nat (List Entry)) :=
  match cachedHost v m with
  | none => some v.byPort
  | some ex => do
    let s ← v.byPort.get? ex.port.number
    let s' ← setRemove s ex
    some (v.byPort.set ex.port.number s')

/-- `VLAN.add_cache_host`, `faucet/vlan.py` 320-333. `none` is a `KeyError`.
The statistics flag `dyn_host_cache_stats_stale` is not modelled. -/
def addCacheHost (v : Vlan) (m : Nat) (p : Port) (t : Int) : Option Vlan := do
  let byPort ← unlinkOld v m
  let entry : Entry := ⟨m, p, t⟩
  let s := match byPort.get? p.number with
    | some s => s
    | none => []
  some { v with
    byPort := byPort.set p.number (setAdd s entry)
    hostCache := v.hostCache.set m entry }

/-- `VLAN.expire_cache_host`, `faucet/vlan.py` 335-341. `none` is a `KeyError`. -/
def expireCacheHost (v : Vlan) (m : Nat) : Option Vlan :=
  match cachedHost v m with
  | none => some v
  | some e => do
    let s ← v.byPort.get? e.port.number
    let s' ← setRemove s e
    some { v with
      byPort := v.byPort.set e.port.number s'
      hostCache := v.hostCache.del m }

/-- The loop `for entry in ...: self.expire_cache_host(entry.eth_src)`,
`faucet/vlan.py` 369-370 and 386-387. -/
def expireAll (v : Vlan) : List Entry → Option Vlan
  | [] => some v
  | e :: es => do
    let v' ← expireCacheHost v e.ethSrc
    expireAll v' es

/-- `VLAN.clear_cache_hosts_on_port`, `faucet/vlan.py` 367-370. -/
def clearCacheHostsOnPort (v : Vlan) (p : Port) : Option Vlan :=
  expireAll v (cachedHostsOnPort v p)

/-- `min(list)` for a non-empty list given as head and tail. -/
def minTime (t : Int) (ts : List Int) : Int := ts.foldl min t

/-- Lines 388-392 of `faucet/vlan.py`: the new value of `dyn_oldest_host_time`. -/
def newOldest (v : Vlan) (now : Int) : Int :=
  match v.hostCache.values.map (·.cacheTime) with
  | [] => now
  | t :: ts => minTime t ts

/-- The condition on lines 377-380 of `faucet/vlan.py`: whether a sweep looks at the table at all. -/
def due (v : Vlan) (now timeout : Int) : Bool :=
  match v.oldest with
  | none => true
  | some o => decide (o < now - timeout)

/-- `VLAN.expire_cache_hosts`, `faucet/vlan.py` 372-393. Returns the expired hosts and the new state. -/
def expireCacheHosts (v : Vlan) (now timeout : Int) : Option (List Entry × Vlan) :=
  let minCacheTime := now - timeout
  if due v now timeout then do
    let expired := v.hostCache.values.filter
      (fun e => decide (e.cacheTime < minCacheTime) && !e.port.permanentLearn)
    let v' ← expireAll v expired
    some (expired, { v' with oldest := some (newOldest v' now) })
  else some ([], v)

/-- `VLAN.reset_caches`, `faucet/vlan.py` 293-300, called on cold start (`faucet/dp.py` 344-349).
`dyn_oldest_host_time` is not reset by the code. -/
def resetCaches (v : Vlan) : Vlan := { v with hostCache := [], byPort := [] }

/-- What can happen to a VLAN's host table. -/
inductive Op where
  /-- a host is learned or refreshed: `add_cache_host` -/
  | learn (m : Nat) (p : Port) (t : Int)
  /-- a host is forgotten: `expire_cache_host` -/
  | forget (m : Nat)
  /-- all hosts of a port are forgotten: `clear_cache_hosts_on_port` -/
  | clearPort (p : Port)
  /-- periodic expiry: `expire_cache_hosts` -/
  | sweep (now timeout : Int)
  /-- the datapath cold starts: `reset_caches` -/
  | coldStart
deriving Repr

/-- One operation; `none` is an uncaught Python exception. -/
def step (v : Vlan) : Op → Option Vlan
  | .learn m p t => addCacheHost v m p t
  | .forget m => expireCacheHost v m
  | .clearPort p => clearCacheHostsOnPort v p
  | .sweep now timeout => (expireCacheHosts v now timeout).map (·.2)
  | .coldStart => some (resetCaches v)

/-- A history of operations, starting from any state. -/
def run (v : Vlan) : List Op → Option Vlan
  | [] => some v
  | op :: ops => do
    let v' ← step v op
    run v' ops

end Faucet.HostCache
