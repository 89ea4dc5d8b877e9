import Verif.HostCache.Model
import Verif.OpenFlow.Table
import Verif.FlowReorder.Model

/-!
# Host learning on a standalone switch (`faucet/valve_switch_standalone.py`, `faucet/valve.py`)

Time is an integer (Python uses float epoch seconds). MAC addresses are natural numbers.
-/

namespace Faucet.Learn
open Faucet.OF
open Faucet.HostCache (Port Entry Vlan)

/-- The configuration of a datapath that learning depends on. -/
structure Cfg where
  /-- ports by number -/
  port : Nat → Port
  /-- `Port.vlans()`, `faucet/port.py` 497-509: VIDs of the VLANs of a port -/
  portVlans : Nat → List Nat
  /-- `loop_protect_external` by port number -/
  loopProtectExternal : Nat → Bool
  /-- whether a port is untagged on a VLAN (VID, port number): `VLAN.port_is_untagged` -/
  untagged : Nat → Nat → Bool
  /-- ports that mirror a port: `Port.mirror` -/
  mirror : Nat → List Nat
  /-- `VLAN.max_hosts` by VID; `0` means no limit -/
  vlanMax : Nat → Nat
  learnTimeout : Nat
  learnJitter : Nat
  /-- `cache_update_guard_time` -/
  guard : Nat
  learnBan : Nat
  idleDst : Bool
  hasExternals : Bool
  /-- whether the datapath uses `ValveSwitchFlowRemovedManager` (`use_idle_timeout`) -/
  flowRemoved : Bool
  /-- Python's `hash` of a MAC address string -/
  macHash : Nat → Int
  ethSrc : Table
  ethDst : Table
  hairpin : Option Table
  classification : Table
  /-- with an egress pipeline, the table `pipeline.output` goes to -/
  egress : Option Nat

/-- Dynamic state of a VLAN: host cache and `dyn_last_time_hosts_expired`. -/
structure VlanSt where
  hosts : Vlan := {}
  lastExpired : Option Int := none

/-- Dynamic state of a port: `dyn_update_time` and `dyn_last_ban_time`, `faucet/port.py` 271-278. -/
structure PortDyn where
  updateTime : Option Int := none
  lastBan : Option Int := none

/-- Learning state of a datapath. -/
structure St where
  vlan : Nat → VlanSt
  port : Nat → PortDyn
  /-- `dyn_last_coldstart_time` -/
  coldstart : Option Int

def St.init : St := ⟨fun _ => {}, fun _ => {}, none⟩

def St.setVlan (st : St) (vid : Nat) (v : VlanSt) : St :=
  { st with vlan := fun i => if i = vid then v else st.vlan i }

def St.setPort (st : St) (n : Nat) (p : PortDyn) : St :=
  { st with port := fun i => if i = n then p else st.port i }

/-! ## Matches (`ValveTable.match`, `faucet/valve_table.py` 103-138), in OXM order -/

def iInPort (n : Nat) : MatchItem := ⟨fInPort, n, none⟩
def iEthDst (m : Nat) : MatchItem := ⟨fEthDst, m, none⟩
def iEthSrc (m : Nat) : MatchItem := ⟨fEthSrc, m, none⟩
def iVlan (vid : Nat) : MatchItem := ⟨fVlanVid, vidPresent vid, none⟩
def iPcp (p : Nat) : MatchItem := ⟨fVlanPcp, p, none⟩

/-! ## Timeouts -/

/-- `_jitter_learn_timeout`, `faucet/valve_switch_standalone.py` 765-776. Python's `%` with a positive
right operand is `Int.emod`. A zero `learn_jitter` would raise, but the configuration rules it out
(`faucet/dp.py` 393-394). -/
def jitterLearnTimeout (cfg : Cfg) (base : Nat) (p : Port) (m : Nat) : Nat :=
  if p.permanentLearn then 0
  else if base = 0 then 0
  else
    let jitter : Int := cfg.macHash m % (cfg.learnJitter : Int)
    let minLearn : Int := (base : Int) - cfg.learnJitter
    max (minLearn + jitter).natAbs cfg.guard

/-- `_learn_host_timeouts`, `faucet/valve_switch_standalone.py` 778-796, and its override in
`ValveSwitchFlowRemovedManager`, 1422-1430: `(src idle, src hard, dst idle)`. -/
def learnHostTimeouts (cfg : Cfg) (p : Port) (m : Nat) : Nat × Nat × Nat :=
  let t := jitterLearnTimeout cfg cfg.learnTimeout p m
  if cfg.flowRemoved then (t, 0, t + cfg.guard)
  else (0, t, if cfg.idleDst then t + cfg.guard else 0)

/-! ## Limits -/

/-- `Port.hosts_count`, `faucet/port.py` 520-527. -/
def portHostsCount (cfg : Cfg) (st : St) (p : Port) : Nat :=
  ((cfg.portVlans p.number).map (fun vid => HostCache.cachedHostsCountOnPort (st.vlan vid).hosts p)).sum

/-- `_temp_ban_host_learning`, `faucet/valve_switch_standalone.py` 737-740. -/
def tempBan (cfg : Cfg) (items : List MatchItem) : OfMsg :=
  cfg.ethSrc.flowdrop items (lowPriority + 1) cfg.learnBan

/-- `ban_rules`, `faucet/valve_switch_standalone.py` 691-735. -/
def banRules (cfg : Cfg) (st : St) (p : Port) (vid m : Nat) : List OfMsg :=
  if (HostCache.cachedHost (st.vlan vid).hosts m).isNone then
    (if p.maxHosts ≠ 0 ∧ portHostsCount cfg st p = p.maxHosts then [tempBan cfg [iInPort p.number]] else [])
    ++ (if cfg.vlanMax vid ≠ 0 ∧ HostCache.hostsCount (st.vlan vid).hosts = cfg.vlanMax vid
        then [tempBan cfg [iVlan vid]] else [])
  else []

/-! ## Rules -/

/-- `delete_host_from_vlan`, `faucet/valve_switch_standalone.py` 742-752. -/
def deleteHost (cfg : Cfg) (m vid : Nat) : List OfMsg :=
  [cfg.ethSrc.flowdel [iEthSrc m, iVlan vid], cfg.ethDst.flowdel [iEthDst m, iVlan vid]]
  ++ (match cfg.hairpin with
      | some t => [t.flowdel [iEthDst m, iVlan vid]]
      | none => [])

/-- `VLAN.output_port`, `faucet/vlan.py` 600-619. -/
def outputPort (cfg : Cfg) (p vid : Nat) (hairpin : Bool) (ext : Option Bool) : List Action :=
  let out := if hairpin then Action.output portInPort else .output p
  if cfg.untagged vid p then [.popVlan] ++ (cfg.mirror p).map .output ++ [out]
  else (cfg.mirror p).map .output
    ++ (match ext with
        | none => []
        | some true => [.setField fVlanPcp pcpExt]
        | some false => [.setField fVlanPcp pcpNonExt])
    ++ [out]

/-- `get_egress_metadata`, `faucet/faucet_metadata.py` 10-14. -/
def egressMetadata (p vid : Nat) : Nat × Nat := (vid <<< 12 ||| (p &&& 0xfff), 0xffffff)

/-- `ValvePipeline.output`, `faucet/valve_pipeline.py` 103-141. -/
def pipelineOutput (cfg : Cfg) (p vid : Nat) (hairpin : Bool) (ext : Option Bool) : List Inst :=
  match cfg.egress with
  | some t => [.writeMetadata (egressMetadata p vid).1 (egressMetadata p vid).2, .goto t]
  | none => [.apply (outputPort cfg p vid hairpin ext)]

/-- The table that source rules go to: `output_table`, `faucet/valve_switch_standalone.py` 145-147. -/
def outputTable (cfg : Cfg) : Nat :=
  match cfg.hairpin with
  | some t => t.id
  | none => cfg.ethDst.id

/-- Match of a destination rule, lines 848-857 and 870-873. -/
def dstItems (m vid : Nat) (pcp : Option Nat) : List MatchItem :=
  [iEthDst m, iVlan vid] ++ (match pcp with | some p => [iPcp p] | none => [])

/-- Match field of the first destination rule: external forwarding flag if there are external ports. -/
def extFlag (cfg : Cfg) : Option Nat := if cfg.hasExternals then some pcpExt else none

/-- Instructions of a destination rule, lines 858-862. -/
def dstInst (cfg : Cfg) (p vid : Nat) : List Inst :=
  pipelineOutput cfg p vid false (if cfg.hasExternals then some true else none)

/-- `learn_host_on_vlan_port_flows`, `faucet/valve_switch_standalone.py` 803-898. Without a hairpin table a
hairpinning port would raise; `faucet/dp.py` 547-548 includes the table whenever a port hairpins, and the model
installs nothing in that case. -/
def learnFlows (cfg : Cfg) (p : Port) (vid m : Nat) (deleteExisting refresh : Bool)
    (timeouts : Nat × Nat × Nat) : List OfMsg :=
  let hairpinning := p.hairpin || p.hairpinUnicast
  (if deleteExisting then deleteHost cfg m vid else [])
  ++ [cfg.ethSrc.flowadd [iInPort p.number, iEthSrc m, iVlan vid] (matchPriority - 1) [.goto (outputTable cfg)]
        timeouts.2.1 timeouts.1]
  ++ (if refresh && !hairpinning then []
      else
        [cfg.ethDst.flowadd (dstItems m vid (extFlag cfg)) matchPriority (dstInst cfg p.number vid) 0 timeouts.2.2]
        ++ (if cfg.hasExternals && !cfg.loopProtectExternal p.number then
              [cfg.ethDst.flowadd (dstItems m vid (some pcpNonExt)) matchPriority (dstInst cfg p.number vid) 0
                timeouts.2.2]
            else [])
        ++ (if hairpinning then
              (match cfg.hairpin with
               | some t => [t.flowadd [iInPort p.number, iEthDst m, iVlan vid] matchPriority
                             (pipelineOutput cfg p.number vid true none) 0 timeouts.2.2]
               | none => [])
            else []))

/-! ## Checks -/

/-- `_perm_learn_check`, `faucet/valve_switch_standalone.py` 900-931: `some msgs` means exit with those
messages and no cache update. -/
def permCheck (cfg : Cfg) (entry : Option Entry) (p : Port) (m : Nat) : Option (List OfMsg) :=
  match entry with
  | some e =>
    if e.port.permanentLearn then
      some (if e.port.number = p.number then []
            else [cfg.classification.flowdrop [iInPort p.number, iEthSrc m] filterPriority])
    else none
  | none => none

/-- `port.lacp and port.lacp == cache_port.lacp`. -/
def sameLag (p q : Port) : Bool := p.lacp != 0 && p.lacp == q.lacp

/-- `port_cache_valid`, lines 953-956. -/
def portCacheValid (st : St) (p : Port) (e : Entry) : Bool :=
  match (st.port p.number).updateTime with
  | some t => decide (t ≤ e.cacheTime)
  | none => false

/-- `_learn_cache_check`, `faucet/valve_switch_standalone.py` 933-976: `none` means exit without cache
update, otherwise the new `(delete_existing, refresh_rules)`. -/
def cacheCheck (cfg : Cfg) (st : St) (now : Int) (entry : Option Entry) (p : Port) (deleteExisting : Bool) :
    Option (Bool × Bool) :=
  match entry with
  | none => some (deleteExisting, false)
  | some e =>
    if e.port.number = p.number ∨ sameLag p e.port then
      let guard : Int := if sameLag p e.port then 2 else cfg.guard
      if now - e.cacheTime < guard ∧ portCacheValid st p e then none
      else some (false, portCacheValid st p e)
    else some (deleteExisting, false)

/-- `if port.dyn_last_ban_time: ...`, lines 999-1002: a recent ban is prolonged. -/
def recentBan (cfg : Cfg) (st : St) (now : Int) (p : Port) : Bool :=
  match (st.port p.number).lastBan with
  | some b => decide (b ≠ 0 ∧ now - b < cfg.guard)
  | none => false

/-- Lines 1005-1007: a rapid move from another port. -/
def rapidMove (cfg : Cfg) (now : Int) (entry : Option Entry) (p : Port) : Bool :=
  match entry with
  | some e => decide (p.number ≠ e.port.number ∧ now - e.cacheTime < cfg.guard)
  | none => false

/-- `_loop_protect_check`, `faucet/valve_switch_standalone.py` 978-1030: whether to ban. The count
`dyn_learn_ban_count` is not modelled. -/
def loopBan (cfg : Cfg) (st : St) (now : Int) (entry : Option Entry) (p : Port) : Bool :=
  p.loopProtect && (recentBan cfg st now p || rapidMove cfg now entry p)

/-- Lines 1094-1097: no hosts expired since the last cold start. -/
def noneExpired (lastExpired coldstart : Option Int) : Bool :=
  match coldstart with
  | none => false
  | some c => c != 0 && (match lastExpired with | none => true | some t => decide (t < c))

/-- Lines 1091-1101: the first value of `delete_existing`. -/
def initialDelete (st : St) (vid : Nat) (entry : Option Entry) (deleteExisting : Bool) (coldstart : Option Int) :
    Bool :=
  if entry.isNone && noneExpired (st.vlan vid).lastExpired coldstart then false else deleteExisting

/-- Result of `learn_host_on_vlan_ports`: messages, whether to update the cache, new state. -/
structure LearnRes where
  msgs : List OfMsg
  updateCache : Bool
  st : St

/-- `learn_host_on_vlan_ports`, `faucet/valve_switch_standalone.py` 1074-1131 with `_learn_check` 1032-1072. -/
def learnHostOnVlanPorts (cfg : Cfg) (st : St) (now : Int) (p : Port) (vid m : Nat)
    (deleteExisting : Bool := true) (coldstart : Option Int := none) : LearnRes :=
  let entry := HostCache.cachedHost (st.vlan vid).hosts m
  match permCheck cfg entry p m with
  | some msgs => ⟨msgs, false, st⟩
  | none =>
    match cacheCheck cfg st now entry p (initialDelete st vid entry deleteExisting coldstart) with
    | none => ⟨[], false, st⟩
    | some (del, refresh) =>
      if loopBan cfg st now entry p then
        ⟨[tempBan cfg [iInPort p.number]], true,
          st.setPort p.number { st.port p.number with lastBan := some now }⟩
      else ⟨learnFlows cfg p vid m del refresh (learnHostTimeouts cfg p m), true, st⟩

/-- `Valve.learn_host`, `faucet/valve.py` 1111-1178, with `edge_learn_port` of a standalone switch
(`faucet/valve_switch_standalone.py` 677-689). Logging, metrics and notifications are not modelled.
`none` is an exception. -/
def learnHost (cfg : Cfg) (st : St) (now : Int) (p : Port) (vid m : Nat) : Option (List OfMsg × St) :=
  let r := learnHostOnVlanPorts cfg st now p vid m true st.coldstart
  if r.updateCache then
    (HostCache.addCacheHost (r.st.vlan vid).hosts m p now).map
      (fun h => (r.msgs, r.st.setVlan vid { r.st.vlan vid with hosts := h }))
  else some (r.msgs, r.st)

/-- `Valve._vlan_rcv_packet`, `faucet/valve.py` 1447-1463. -/
def rcvPacket (cfg : Cfg) (st : St) (now : Int) (p : Port) (vid m : Nat) : Option (List OfMsg × St) :=
  let bans := banRules cfg st p vid m
  if bans ≠ [] then some (bans, st) else learnHost cfg st now p vid m

/-! ## Expiry and ports -/

/-- `expire_hosts_from_vlan`, `faucet/valve_switch_standalone.py` 754-763, and its override in
`ValveSwitchFlowRemovedManager` 1419-1420. -/
def expireHosts (cfg : Cfg) (st : St) (now : Int) (vid : Nat) : Option (List Entry × St) :=
  if cfg.flowRemoved then some ([], st)
  else
    (HostCache.expireCacheHosts (st.vlan vid).hosts now cfg.learnTimeout).map (fun r =>
      (r.1, st.setVlan vid
        { hosts := r.2, lastExpired := if r.1 = [] then (st.vlan vid).lastExpired else some now }))

/-- `Valve.state_expire`, `faucet/valve.py` 1507-1534, for one VLAN. LACP and routing are elsewhere. -/
def sweep (cfg : Cfg) (st : St) (now : Int) (vid : Nat) : Option (List OfMsg × St) :=
  (expireHosts cfg st now vid).map (fun r =>
    (if cfg.idleDst then [] else r.1.flatMap (fun e => deleteHost cfg e.ethSrc vid), r.2))

/-- `_del_host_flows`, `faucet/valve_switch_standalone.py` 630-640. -/
def delHostFlows (cfg : Cfg) (n : Nat) : List OfMsg :=
  [cfg.ethSrc.flowdel [iInPort n], cfg.ethDst.flowdel [] 0 (some n)]
  ++ (match cfg.hairpin with
      | some t => [t.flowdel [] 0 (some n)]
      | none => [])

/-- The loop over `port.vlans()` of `_port_delete_flows_state`, `faucet/valve.py` 838-842. -/
def clearVlans (cfg : Cfg) (p : Port) : List Nat → St → Option St
  | [], st => some st
  | vid :: vids, st => do
    let h ← HostCache.clearCacheHostsOnPort (st.vlan vid).hosts p
    clearVlans cfg p vids (st.setVlan vid { st.vlan vid with hosts := h })

/-- `ports_delete` and `_port_delete_flows_state`, `faucet/valve.py` 831-843 and 922-927, restricted to host rules and host
cache. A port in a LAG goes through `lacp_update` instead, which leaves the host cache alone; if the LAG state changes it
deletes the rules, see `portDown`. -/
def portDelete (cfg : Cfg) (st : St) (n : Nat) : Option (List OfMsg × St) :=
  if cfg.portVlans n = [] ∨ (cfg.port n).lacp ≠ 0 then some ([], st)
  else (clearVlans cfg (cfg.port n) (cfg.portVlans n) st).map (fun st' => (delHostFlows cfg n, st'))

/-- `ports_delete` for a port that is reported down, `faucet/valve.py` 685-702 and 831-843: `keep_cache` is set, so that the
host rules go and the hosts stay in the host table. Also `lacp_update` for a port of a LAG that goes down, or is no
longer selected, 958-1004. Restricted to host rules. -/
def portDown (cfg : Cfg) (n : Nat) : List OfMsg := if cfg.portVlans n = [] then [] else delHostFlows cfg n

/-- `_set_port_status`, `faucet/valve.py` 531-541: `dyn_update_time`. -/
def portUpdate (st : St) (n : Nat) (now : Int) : St :=
  st.setPort n { st.port n with updateTime := some now }

/-- `DP.cold_start`, `faucet/dp.py` 344-349. -/
def coldStart (st : St) (now : Int) : St :=
  { st with
    vlan := fun vid => { st.vlan vid with hosts := HostCache.resetCaches (st.vlan vid).hosts }
    coldstart := some now }

/-- `_src_rule_expire`, `faucet/valve_switch_standalone.py` 1432-1440 (flow-removed manager only). -/
def srcRuleExpire (cfg : Cfg) (st : St) (vid n m : Nat) : Option St :=
  match HostCache.cachedHostOnPort (st.vlan vid).hosts m (cfg.port n) with
  | some _ => (HostCache.expireCacheHost (st.vlan vid).hosts m).map
      (fun h => st.setVlan vid { st.vlan vid with hosts := h })
  | none => some st

/-- `_dst_rule_expire`, `faucet/valve_switch_standalone.py` 1442-1452 (flow-removed manager only). The cache is
not updated. -/
def dstRuleExpire (cfg : Cfg) (st : St) (now : Int) (vid m : Nat) : List OfMsg × St :=
  match HostCache.cachedHost (st.vlan vid).hosts m with
  | some e =>
    let r := learnHostOnVlanPorts cfg st now e.port vid m false none
    (r.msgs, r.st)
  | none => ([], st)

/-! ## A datapath and its switch -/

/-- What can happen. -/
inductive Ev where
  /-- a packet from MAC `m` arrives on port `n`, VLAN `vid` -/
  | packet (now : Int) (n vid m : Nat)
  /-- periodic expiry on a VLAN -/
  | expire (now : Int) (vid : Nat)
  /-- a port is removed from the configuration, or changed, or its switch disconnects -/
  | portDelete (n : Nat)
  /-- a port is reported down -/
  | portDown (n : Nat)
  /-- a port changes status -/
  | portUpdate (now : Int) (n : Nat)
  /-- the switch (re)connects -/
  | coldStart (now : Int)
  /-- a rule times out on the switch -/
  | flowGone (s : Slot)
  /-- the switch notifies that a source rule timed out -/
  | srcRemoved (vid n m : Nat)
  /-- the switch notifies that a destination rule timed out -/
  | dstRemoved (now : Int) (vid m : Nat)
deriving Repr

/-- The controller's reaction: messages and new state; `none` is an exception. A cold start sends
`_delete_all_valve_flows` (`faucet/valve.py` 382-389); the pipeline rules it then installs, which are not
host rules, are not modelled. Flow-removed notifications are ignored without the flow-removed manager
(`faucet/valve_switch_standalone.py` 1133-1136). -/
def react (cfg : Cfg) (st : St) : Ev → Option (List OfMsg × St)
  | .packet now n vid m => rcvPacket cfg st now (cfg.port n) vid m
  | .expire now vid => sweep cfg st now vid
  | .portDelete n => portDelete cfg st n
  | .portDown n => some (portDown cfg n, st)
  | .portUpdate now n => some ([], portUpdate st n now)
  | .coldStart now => some ([(⟨tableAll, 0⟩ : Table).flowdel []], coldStart st now)
  | .flowGone _ => some ([], st)
  | .srcRemoved vid n m => if cfg.flowRemoved then (srcRuleExpire cfg st vid n m).map (fun s => ([], s)) else some ([], st)
  | .dstRemoved now vid m => if cfg.flowRemoved then some (dstRuleExpire cfg st now vid m) else some ([], st)

/-- The controller alone, over a history. -/
def ctlRun (cfg : Cfg) (st : St) : List Ev → Option St
  | [] => some st
  | ev :: evs => do
    let r ← react cfg st ev
    ctlRun cfg r.2 evs

/-- The switch, before messages arrive: a rule may time out by itself. -/
def switchEnv (sw : Switch) : Ev → Switch
  | .flowGone s => { sw with flows := fun t => if t = s then none else sw.flows t }
  | _ => sw

/-- Controller and switch together. Messages go through `valve_flowreorder` (`faucet/valve.py` 1822-1855). -/
structure Sys where
  st : St
  sw : Switch

def Sys.init : Sys := ⟨St.init, ⟨fun _ => none, fun _ => none, fun _ => none⟩⟩

def sysStep (cfg : Cfg) (sh : List OfMsg → List OfMsg) (bar : Bool) (s : Sys) (ev : Ev) : Option Sys := do
  let r ← react cfg s.st ev
  let out ← FlowReorder.reorder sh bar r.1
  some ⟨r.2, (switchEnv s.sw ev).execAll out⟩

def sysRun (cfg : Cfg) (sh : List OfMsg → List OfMsg) (bar : Bool) (s : Sys) : List Ev → Option Sys
  | [] => some s
  | ev :: evs => do
    let s' ← sysStep cfg sh bar s ev
    sysRun cfg sh bar s' evs

end Faucet.Learn
