import Verif.L2.Model

/-!
# One standalone switch: a new configuration while the switch is connected

`DP.get_config_changes` (`faucet/dp.py` 1404-1775), `Valve._apply_config_changes` and `Valve.reload_config`
(`faucet/valve.py` 1572-1712) and `Valve.dp_init`, for the switches of `Model`. ACLs, meters, routing and stacking are not
modelled. Configuration objects are compared by their sections of the file, which the model does not have: which sections are
the same is a parameter (`Sections`). A change of a setting of the datapath itself restarts it cold, `faucet/dp.py` 1735-1740.
-/

namespace Faucet.L2
open Faucet.OF
open Faucet.Learn (iVlan)

/-- Which sections of ports and VLANs, that both configurations have, are the same (`ignore_subconf`, `faucet/conf.py`
146-158). -/
structure Sections where
  port : Nat → Bool
  vlan : Nat → Bool

/-- What `get_config_changes` finds: numbers of ports and VIDs. -/
structure Changes where
  delP : List Nat
  chP : List Nat
  addP : List Nat
  delV : List Nat
  chV : List Nat
deriving DecidableEq, Repr

def Cfg.nums (c : Cfg) : List Nat := c.ports.map (·.number)
def Cfg.vidList (c : Cfg) : List Nat := c.vlans.map (·.vid)

/-! ## Changes -/

section
variable (c c' : Cfg) (sec : Sections)

/-- `_get_vlan_config_changes`, `faucet/dp.py` 1476-1517, without ACLs: changed and added VLANs. -/
def vlanChanged : List Nat := c'.vidList.filter (fun v => !(c.vidList.contains v && sec.vlan v))

def vlanDeleted : List Nat := c.vidList.filter (fun v => !c'.vidList.contains v)

def portDeleted : List Nat := c.nums.filter (fun n => !c'.nums.contains n)

def portAdded : List Nat := c'.nums.filter (fun n => !c.nums.contains n)

/-- `same_ports`, `faucet/dp.py` 1567-1579. -/
def portSame : List Nat := c'.nums.filter (fun n => c.nums.contains n && sec.port n)

/-- Lines 1567-1606: ports with another section, and the ports of changed or added VLANs. -/
def portChanged : List Nat :=
  c'.nums.filter (fun n => c.nums.contains n && !sec.port n)
    ++ c'.nums.filter (fun n => (c'.portVids n).any (fun v => (vlanChanged c c' sec).contains v))

/-- `_add_changed_vlans`, lines 1623-1630: VLANs that the port left or joined. -/
def moved (n : Nat) : List Nat :=
  (c.portVids n).filter (fun v => !(c'.portVids n).contains v) ++ (c'.portVids n).filter (fun v => !(c.portVids n).contains v)

/-- Lines 1632-1645. -/
def vlanTouched : List Nat :=
  vlanChanged c c' sec ++ ((portChanged c c' sec).filter (fun n => c.nums.contains n)).flatMap (moved c c')
    ++ (portDeleted c c').flatMap c.portVids ++ (portAdded c c').flatMap c'.portVids

/-- `all_ports_changed`, lines 1594-1606; with routing also when a changed VLAN has an address. -/
def allChanged : Bool :=
  (portSame c c' sec).isEmpty || (!(vlanChanged c c' sec).isEmpty && c'.nums.all (fun n => (portChanged c c' sec).contains n))

/-- `_get_port_config_changes`, lines 1534-1695. -/
def changes : Changes where
  delP := portDeleted c c'
  chP := portChanged c c' sec ++ (portSame c c' sec).filter (fun n => c.mirrors n != c'.mirrors n)
  addP := portAdded c c'
  delV := vlanDeleted c c'
  chV := (vlanTouched c c' sec).filter (fun v => !(vlanDeleted c c').contains v)

end

/-- The same changes: sets in Python, so that the order of the lists and repetitions are arbitrary. -/
structure Changes.Same (a b : Changes) : Prop where
  delP : ∀ n, n ∈ a.delP ↔ n ∈ b.delP
  chP : ∀ n, n ∈ a.chP ↔ n ∈ b.chP
  addP : ∀ n, n ∈ a.addP ↔ n ∈ b.addP
  delV : ∀ n, n ∈ a.delV ↔ n ∈ b.delV
  chV : ∀ n, n ∈ a.chV ↔ n ∈ b.chV

def Changes.none (a : Changes) : Bool :=
  a.delP.isEmpty && a.chP.isEmpty && a.addP.isEmpty && a.delV.isEmpty && a.chV.isEmpty

/-! ## Messages -/

/-- `del_vlan`, `faucet/valve_switch_standalone.py` 542-548. -/
def Cfg.delVlan (c : Cfg) (v : LVlan) : List OfMsg :=
  [(c.table .flood).flowdel [iVlan v.vid], (c.table .ethSrc).flowdel [iVlan v.vid] lowPriority]

/-- The ports with these numbers: `ports_delete` and `ports_add` skip numbers that are not configured. -/
def Cfg.portsOf (c : Cfg) (ns : List Nat) : List LPort := ns.filterMap c.find

/-- The port state after `ports_delete(port_nums)`. -/
def Cfg.deleteDyn (c : Cfg) (d : Nat → Dyn) (ns : List Nat) (lag : Nat → LagChange) : Nat → Dyn := fun n =>
  if ns.contains n then c.disconnectDyn d lag n else d n

/-- `ports_delete(port_nums)`, `faucet/valve.py` 897-933; the dynamic state is the new one. Bundle messages of a port are made
before the state of later ports changes; the model uses the final state, which only matters for flood rules that
`update_vlan` then makes again. -/
def Cfg.deleteMsgs (c : Cfg) (d : Nat → Dyn) (ns : List Nat) (lag : Nat → LagChange) : List OfMsg :=
  (c.portsOf ns).flatMap (fun p => if p.lacp ≠ 0 then c.changeMsgs d false p (p.change (lag p.number)) else c.portDel p)
    ++ ((c.portsOf ns).flatMap c.vlansOf).flatMap (c.updateVlan d)

/-- `ports_add(port_nums)`, `faucet/valve.py` 845-885; the dynamic state is the new one, see `connectPort`. -/
def Cfg.addMsgs (c : Cfg) (d : Nat → Dyn) (ns : List Nat) (lag : Nat → LagChange) : List OfMsg :=
  ((c.portsOf ns).filter (·.enabled)).flatMap (fun p => c.portAdd p ++ c.changeMsgs d false p (p.change (lag p.number)))
    ++ (((c.portsOf ns).filter (·.enabled)).flatMap c.vlansOf).flatMap (c.addVlan d false)

/-! ## State -/

/-- `clone_dyn_state` (`faucet/port.py` 298-306) keeps the link state `d` of ports that both configurations have;
`merge_dyn` (`faucet/conf.py` 174-176) keeps the state in bundles, as it was before the reload (`d0`), if also the section is
the same. -/
def cloneDyn (c : Cfg) (sec : Sections) (d0 d : Nat → Dyn) : Nat → Dyn := fun n =>
  if c.nums.contains n then ⟨(d n).physUp, sec.port n && (d0 n).selected, sec.port n && (d0 n).actorUp⟩ else {}

/-- The host table of a VLAN is kept (`merge_dyn`) if its section is the same. -/
def cloneVlan (c c' : Cfg) (sec : Sections) (st : Learn.St) (v : Nat) : Learn.VlanSt :=
  if c.vidList.contains v && c'.vidList.contains v && sec.vlan v then st.vlan v else {}

def clonePort (c : Cfg) (sec : Sections) (st : Learn.St) (n : Nat) : Learn.PortDyn :=
  if c.nums.contains n then ⟨(st.port n).updateTime, if sec.port n then (st.port n).lastBan else none⟩ else {}

/-- The learning state after `dp_init`. -/
def cloneLearn (c c' : Cfg) (sec : Sections) (st : Learn.St) : Learn.St :=
  ⟨cloneVlan c c' sec st, clonePort c sec st, st.coldstart⟩

/-- The learning state after `del_vlans(changed_vlans)`: `reset_caches`, `faucet/valve.py` 452-462. -/
def resetVlans (chV : List Nat) (st : Learn.St) : Learn.St :=
  ⟨fun v => if chV.contains v then ⟨HostCache.resetCaches (st.vlan v).hosts, (st.vlan v).lastExpired⟩ else st.vlan v,
    st.port, st.coldstart⟩

/-- The parts of a warm restart: the states of the ports and the messages. `lag` says what the four calls of `ports_delete`
and `ports_add` do to bundles. -/
structure Warm where
  dDel : Nat → Dyn
  dCh : Nat → Dyn
  dAdd : Nat → Dyn
  dEnd : Nat → Dyn

def warm (c c' : Cfg) (sec : Sections) (ch : Changes) (known : Nat → Bool) (lag : Nat → Nat → LagChange) (d : Nat → Dyn) : Warm :=
  let d1 := c.deleteDyn d ch.delP (lag 0)
  let d2 := c.deleteDyn d1 ch.chP (lag 1)
  let d3 := c'.connectDyn (cloneDyn c sec d d2) (ch.addP.filter known) (lag 2)
  ⟨d1, d2, d3, c'.connectDyn d3 (ch.chP.filter known) (lag 3)⟩

/-- Messages before `dp_init`: with the old configuration. -/
def oldMsgs (c : Cfg) (ch : Changes) (lag : Nat → Nat → LagChange) (w : Warm) : List OfMsg :=
  c.deleteMsgs w.dDel ch.delP (lag 0) ++ c.deleteMsgs w.dCh ch.chP (lag 1) ++ (ch.delV.filterMap c.vlan).flatMap c.delVlan

/-- Messages after `dp_init`: with the new configuration. -/
def newMsgs (c' : Cfg) (ch : Changes) (known : Nat → Bool) (lag : Nat → Nat → LagChange) (w : Warm) : List OfMsg :=
  c'.addMsgs w.dAdd (ch.addP.filter known) (lag 2) ++ c'.addMsgs w.dEnd (ch.chP.filter known) (lag 3)
    ++ (ch.chV.filterMap c'.vlan).flatMap c'.delVlan ++ (ch.chV.filterMap c'.vlan).flatMap (c'.addVlan w.dEnd true)

/-- **`reload_config` that does not restart the switch cold**, `faucet/valve.py` 1617-1712: messages to send and new state;
`none` is an exception. Without changes only `dp_init` is done. Messages are sent only when the switch is connected. -/
def reload (c c' : Cfg) (sec : Sections) (ch : Changes) (lag : Nat → Nat → LagChange) (s : Ctl) : Option (List OfMsg × Ctl) :=
  if ch.none then some ([], ⟨s.running, cloneDyn c sec s.dyn s.dyn, cloneLearn c c' sec s.learn, s.known⟩)
  else
    let w := warm c c' sec ch s.known lag s.dyn
    (c.forgetAll (c.portsOf ch.delP ++ c.portsOf ch.chP) s.learn).map (fun st =>
      (if s.running then oldMsgs c ch lag w ++ newMsgs c' ch s.known lag w else [],
        ⟨s.running, w.dEnd, resetVlans ch.chV (cloneLearn c c' sec st), s.known⟩))

end Faucet.L2
