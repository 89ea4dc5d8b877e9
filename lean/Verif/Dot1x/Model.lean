import Verif.Acl.Model

/-!
# 802.1x: the flows of clients that log in and out

`faucet/faucet_dot1x.py`, `faucet/valve_acl.py` 405-432 and 574-759, `faucet/valve.py` 44-70, 831-933 and 1718-1743. One
switch; its configuration does not change, but it may be read again. The authenticator (`chewie`) is not FAUCET code: it calls the handlers in any
order. An exception (which ends the controller, `kill_on_exception`) is `none`.
-/

namespace Faucet.Dot1x
open Faucet.OF

/-- `auth_priority`, `low_priority` and `override_priority`, `faucet/valve_acl.py` 452-455. -/
def authPriority : Nat := highPriority
def mabPriority : Nat := authPriority - 1
def overridePriority : Nat := Acl.aclPriority + 1

def fIpProto : Nat := 10
def fUdpSrc : Nat := 15
def fUdpDst : Nat := 16

/-- `ETH_EAPOL` and `EAPOL_ETH_DST` (01:80:c2:00:00:03), `faucet/valve_packet.py`. -/
def ethEapol : Nat := 0x888e
def eapolDst : Nat := 0x0180c2000003

/-- The settings of a port used here: number, port ACLs, `output_only`, `lacp`, and the 802.1x settings `dot1x`,
`dot1x_acl`, `dot1x_dyn_acl`, `dot1x_mab` (`faucet/port.py` 144-150). -/
structure PortConf where
  number : Nat
  aclsIn : List Acl.Acl := []
  outputOnly : Bool := false
  lacp : Bool := false
  dot1x : Bool := false
  dot1xAcl : Bool := false
  dynAcl : Bool := false
  mab : Bool := false
deriving DecidableEq, Repr

/-- The settings of the switch: the port ACL table, the tables allowed packets go to, `nfv_sw_port`, the ACLs named by
`auth_acl` and `noauth_acl`, all ACLs by name, the ports by number (in the order of the configuration), the VLANs by
name, and the MAC that stands for a port towards the authenticator (`get_mac_str`, property C42). `enc` are the
conversions of match values; `reok` says which converted values they accept once more
(`add_mac_address_to_match` converts twice): they then leave them as they are. -/
structure Cfg where
  enc : Acl.Enc
  reok : MatchItem → Bool
  table : Table
  vlanTable : Nat
  l2Table : Nat
  meters : Dict Nat Nat := []
  nfv : Nat
  auth : Option Acl.Acl := none
  noauth : Option Acl.Acl := none
  acls : Dict Nat Acl.Acl := []
  ports : Dict Nat PortConf
  vlanNamed : Nat → Option Nat
  ident : Nat → Nat

/-- What the other managers send when a port comes up or goes down, and what `_warm_reconfig_port_native_vlans`
(`faucet/valve.py` 1718-1727: port number, old and new dynamic VLAN) sends: VLAN and forwarding rules. -/
structure Other where
  up : Nat → List OfMsg
  down : Nat → List OfMsg
  warm : Nat → Option Nat → Option Nat → List OfMsg

/-! ## `ValveAclManager` -/

/-- The context of `build_acl_port_of_msgs`, `faucet/valve_acl.py` 405-420. `meters` is `acl.meter`, a truth value: a
rule with a meter is an exception. -/
def aclCtx (c : Cfg) (acl : Acl.Acl) (port : Nat) : Acl.Ctx :=
  { table := c.table, allowTable := c.vlanTable, forceTable := c.vlanTable, highest := authPriority,
    exact := acl.exactMatch, port := some port }

/-- The items with the source address set, in the order of their field numbers. -/
def setSrc (items : List MatchItem) (mac : Nat) : List MatchItem :=
  isort (fun a b => decide (a.field ≤ b.field)) (items.filter (fun i => i.field ≠ fEthSrc) ++ [⟨fEthSrc, mac, none⟩])

/-- `add_mac_address_to_match`, `faucet/valve_acl.py` 423-432. -/
def withMac (c : Cfg) (mac : Option Nat) (items : List MatchItem) : Option (List MatchItem) :=
  match mac with
  | none => some items
  | some m => if (items.filter (fun i => i.field ≠ fEthSrc)).all c.reok then some (setSrc items m) else none

/-- One turn of the loops of `add_port_acl` and `del_port_acl`, `faucet/valve_acl.py` 626-627 and 642-643. A message that
is not a flow (of a failover group) has no `match`: an exception. -/
def macFlow (c : Cfg) (mac : Option Nat) : OfMsg → Option FlowMod
  | .flow f => (withMac c mac f.mtch.items).map (fun items => { f with mtch := ⟨items, 0⟩ })
  | _ => none

def macFlows (c : Cfg) (mac : Option Nat) : List OfMsg → Option (List FlowMod)
  | [] => some []
  | m :: ms => (macFlow c mac m).bind (fun a => (macFlows c mac ms).map (fun b => a :: b))

/-- `add_port_acl`, `faucet/valve_acl.py` 631-646. An ACL without rules gives `None`, over which the loop cannot run. -/
def addPortAcl (c : Cfg) (acl : Acl.Acl) (port : Nat) (mac : Option Nat) : Option (List FlowMod) :=
  if acl.rules = [] then none
  else (Acl.buildAcls c.enc (aclCtx c acl port) [acl]).bind (macFlows c mac)

/-- `del_port_acl`, `faucet/valve_acl.py` 602-629: the deletes are not strict. -/
def delPortAcl (c : Cfg) (acl : Acl.Acl) (port : Nat) (mac : Option Nat) : Option (List OfMsg) :=
  (addPortAcl c acl port mac).map (fun fs => fs.map (fun f => c.table.flowdel f.mtch.items f.priority))

/-- The match on port and source address. -/
def macItems (port mac : Nat) : List MatchItem := [⟨fInPort, port, none⟩, ⟨fEthSrc, mac, none⟩]

/-- `add_authed_mac`, `faucet/valve_acl.py` 574-582. -/
def addAuthedMac (c : Cfg) (port mac : Nat) : OfMsg :=
  c.table.flowadd (macItems port mac) authPriority [.goto c.vlanTable]

/-- `del_authed_mac` with an address, `faucet/valve_acl.py` 584-593. -/
def delAuthedMac (c : Cfg) (port mac : Nat) (strict : Bool) : OfMsg :=
  c.table.flowdel (macItems port mac) authPriority none strict

/-- The matches of the two EAPOL flows, `faucet/valve_acl.py` 651-654 and 667-671. -/
def fromItems (port : Nat) : List MatchItem := [⟨fInPort, port, none⟩, ⟨fEthType, ethEapol, none⟩]
def toItems (nfv ident : Nat) : List MatchItem :=
  [⟨fInPort, nfv, none⟩, ⟨fEthSrc, ident, none⟩, ⟨fEthType, ethEapol, none⟩]

/-- `create_dot1x_flow_pair`, `faucet/valve_acl.py` 647-685. -/
def flowPair (c : Cfg) (port : Nat) : List OfMsg :=
  [c.table.flowadd (fromItems port) overridePriority
     [.apply [.setField fEthDst (c.ident port), .output c.nfv]],
   c.table.flowadd (toItems c.nfv (c.ident port)) overridePriority
     [.apply [.setField fEthSrc eapolDst, .output port]]]

/-- `del_dot1x_flow_pair`, `faucet/valve_acl.py` 687-704. -/
def delFlowPair (c : Cfg) (port : Nat) : List OfMsg :=
  [c.table.flowdel (toItems c.nfv (c.ident port)) overridePriority,
   c.table.flowdel (fromItems port) overridePriority]

/-- The match on DHCP requests, `faucet/valve_acl.py` 719-725. -/
def mabItems (port : Nat) : List MatchItem :=
  [⟨fInPort, port, none⟩, ⟨fEthType, 0x800, none⟩, ⟨fIpProto, 17, none⟩, ⟨fUdpSrc, 68, none⟩, ⟨fUdpDst, 67, none⟩]

/-- `create_mab_flow`, `faucet/valve_acl.py` 706-735. -/
def mabFlow (c : Cfg) (port : Nat) : OfMsg :=
  c.table.flowadd (mabItems port) mabPriority [.apply [.setField fEthDst (c.ident port), .output c.nfv]]

/-- `del_mab_flow`, `faucet/valve_acl.py` 737-759. -/
def delMabFlow (c : Cfg) (port : Nat) : OfMsg := c.table.flowdel (mabItems port) mabPriority none true

/-! ## `FaucetDot1x` -/

/-- What changes: which ports are up (`running()`), their `dyn_dot1x_native_vlan`, and the switch. -/
structure St where
  running : Nat → Bool := fun _ => false
  dyn : Nat → Option Nat := fun _ => none
  sw : Switch

/-- Adding flows. -/
def adds (fs : List FlowMod) : List OfMsg := fs.map .flow

/-- `_add_unauthenticated_flowmod` without address, `faucet/faucet_dot1x.py` 451-462. Without the ACL this is an
exception. -/
def addUnauth (c : Cfg) (p : PortConf) : Option (List OfMsg) :=
  if p.dot1xAcl then c.noauth.bind (fun a => (addPortAcl c a p.number none).map adds) else some []

/-- `_del_unauthenticated_flowmod` without address, `faucet/faucet_dot1x.py` 464-475. -/
def delUnauth (c : Cfg) (p : PortConf) : Option (List OfMsg) :=
  if p.dot1xAcl then c.noauth.bind (fun a => delPortAcl c a p.number none) else some []

/-- The ACL part of `_add_authenticated_flowmod`, `faucet/faucet_dot1x.py` 403-428. -/
def addAuth (c : Cfg) (p : PortConf) (mac : Nat) (filter : Option Nat) : Option (List OfMsg) :=
  match (if p.dynAcl then filter.bind (fun n => c.acls.get? n) else none) with
  | some a => (addPortAcl c a p.number (some mac)).map adds
  | none =>
    if p.dot1xAcl then c.auth.bind (fun a => (addPortAcl c a p.number (some mac)).map adds)
    else some [addAuthedMac c p.number mac]

/-- The ACL part of `_del_authenticated_flowmod`, `faucet/faucet_dot1x.py` 434-446. -/
def delAuth (c : Cfg) (p : PortConf) (mac : Nat) : Option (List OfMsg) :=
  if p.dot1xAcl then c.auth.bind (fun a => delPortAcl c a p.number (some mac))
  else if p.dynAcl then some [delAuthedMac c p.number mac false]
  else some [delAuthedMac c p.number mac true]

/-- `add_dot1x_native_vlan`, `faucet/valve.py` 1729-1736: the VLAN the port gets, if one has the name. -/
def newVlan (c : Cfg) (vlan : Option Nat) : Option Nat := vlan.bind c.vlanNamed

def vlanMsgs (o : Other) (s : St) (port : Nat) (v : Option Nat) : List OfMsg :=
  match v with
  | some v => o.warm port (s.dyn port) (some v)
  | none => []

/-- `del_dot1x_native_vlan`, `faucet/valve.py` 1738-1743. -/
def unVlanMsgs (o : Other) (s : St) (port : Nat) : List OfMsg :=
  match s.dyn port with
  | some v => o.warm port (some v) none
  | none => []

/-- `_get_login_flowmod`, `faucet/faucet_dot1x.py` 373-390. -/
def loginMsgs (c : Cfg) (o : Other) (s : St) (p : PortConf) (mac : Nat) (vlan filter : Option Nat) : Option (List OfMsg) :=
  (delUnauth c p).bind (fun a => (addAuth c p mac filter).map (fun b =>
    a ++ b ++ vlanMsgs o s p.number (newVlan c vlan)))

/-- `_get_logoff_flowmod`, `faucet/faucet_dot1x.py` 366-371. -/
def logoffMsgs (c : Cfg) (o : Other) (s : St) (p : PortConf) (mac : Nat) : Option (List OfMsg) :=
  (delAuth c p mac).bind (fun a => (addUnauth c p).map (fun b => a ++ unVlanMsgs o s p.number ++ b))

/-- `create_flow_pair`, `faucet/faucet_dot1x.py` 275-294: nothing for a port that is down. -/
def pairIfUp (c : Cfg) (s : St) (port : Nat) : List OfMsg := if s.running port then flowPair c port else []

/-- `nfv_sw_port_up`, `faucet/faucet_dot1x.py` 196-216. -/
def nfvUpMsgs (c : Cfg) (s : St) : List OfMsg :=
  (c.ports.values.filter (fun p => p.dot1x)).flatMap (fun p => pairIfUp c s p.number)

/-- `port_up`, `faucet/faucet_dot1x.py` 218-249, for a port that is up. -/
def portUpMsgs (c : Cfg) (p : PortConf) : Option (List OfMsg) :=
  (addUnauth c p).map (fun b => flowPair c p.number ++ b ++ (if p.mab then [mabFlow c p.number] else []))

/-- `port_down`, `faucet/faucet_dot1x.py` 296-324: the address passed on is that of the port, not that of a client. -/
def portDownMsgs (c : Cfg) (o : Other) (s : St) (p : PortConf) : Option (List OfMsg) :=
  (delAuth c p (c.ident p.number)).bind (fun a => (delUnauth c p).map (fun b =>
    a ++ unVlanMsgs o s p.number ++ b ++ [delMabFlow c p.number] ++ delFlowPair c p.number))

/-- `Dot1xManager.add_port`, `faucet/valve.py` 60-70. -/
def mgrAdd (c : Cfg) (s : St) (p : PortConf) : Option (List OfMsg) :=
  if p.number = c.nfv then some (nfvUpMsgs c s)
  else if p.dot1x then portUpMsgs c p
  else some []

/-- `Dot1xManager.del_port`, `faucet/valve.py` 54-58. -/
def mgrDel (c : Cfg) (o : Other) (s : St) (p : PortConf) : Option (List OfMsg) :=
  if p.dot1x then portDownMsgs c o s p else some []

/-- The ACL manager and the port as it sees it. -/
def aclMgr (c : Cfg) : Acl.Mgr :=
  { portTable := some c.table, toVlan := c.vlanTable, toClass := 0, toL2 := c.l2Table, toEgress := 0, meters := c.meters }

def aclPort (p : PortConf) : Acl.Port :=
  { number := p.number, aclsIn := p.aclsIn, outputOnly := p.outputOnly, dot1x := p.dot1x }

/-- What happens: a port comes up or goes down, a client logs in with the VLAN and the filter the RADIUS server gave,
logs off, or fails to authenticate, or FAUCET reads its configuration again and finds that of the switch as it was. -/
inductive Ev where
  | up (port : Nat)
  | down (port : Nat)
  | login (port mac : Nat) (vlan filter : Option Nat)
  | logoff (port mac : Nat)
  | fail (port mac : Nat)
  | reload
deriving DecidableEq, Repr

def St.exec (s : St) (ms : List OfMsg) : St := { s with sw := s.sw.execAll ms }
def St.setRunning (s : St) (p : Nat) (b : Bool) : St := { s with running := fun q => if q = p then b else s.running q }
def St.setDyn (s : St) (p : Nat) (v : Option Nat) : St := { s with dyn := fun q => if q = p then v else s.dyn q }

/-- `ports_add` for one port that is enabled, `faucet/valve.py` 859-872: the managers in their order (322-337; the port
and VLAN rules of the others come first). -/
def portUp (c : Cfg) (o : Other) (s : St) (p : PortConf) : Option St :=
  let s1 := s.setRunning p.number true
  (Acl.addPort c.enc (aclMgr c) (aclPort p)).bind (fun a => (mgrAdd c s1 p).map (fun b =>
    s1.exec (o.up p.number ++ a ++ b)))

/-- `ports_delete` for one port, `faucet/valve.py` 910-930: the managers are told only if the port has no LACP. -/
def portDown (c : Cfg) (o : Other) (s : St) (p : PortConf) : Option St :=
  let s1 := s.setRunning p.number false
  if p.lacp then some (s1.exec (o.down p.number))
  else (mgrDel c o s1 p).map (fun b =>
    let s2 := s1.exec (o.down p.number ++ Acl.delPort (aclMgr c) (aclPort p) ++ b)
    if p.dot1x then s2.setDyn p.number none else s2)

/-- `auth_handler`, `faucet/faucet_dot1x.py` 134-152. -/
def login (c : Cfg) (o : Other) (s : St) (p : PortConf) (mac : Nat) (vlan filter : Option Nat) : Option St :=
  (loginMsgs c o s p mac vlan filter).map (fun ms =>
    match newVlan c vlan with
    | some v => (s.exec ms).setDyn p.number (some v)
    | none => s.exec ms)

/-- `logoff_handler` and `failure_handler`, `faucet/faucet_dot1x.py` 154-180. -/
def logoff (c : Cfg) (o : Other) (s : St) (p : PortConf) (mac : Nat) : Option St :=
  (logoffMsgs c o s p mac).map (fun ms => (s.exec ms).setDyn p.number none)

/-- `reload_config` when nothing has changed, `faucet/valve.py` 1622-1625 and 195-202: no message is sent, and the new
ports take over what `clone_dyn_state` copies (`faucet/dp.py` 334-342, `faucet/port.py` 298-306): whether the port is up,
but not `dyn_dot1x_native_vlan`. The authenticator is started anew; what it reports is an input here. The addresses that
stand for ports are taken to stay the same: see `Verif.Dot1x.Reset`. -/
def reload (s : St) : St := { s with dyn := fun _ => none }

/-- An 802.1x port by number (`mac_to_port` knows no others: `KeyError`). -/
def dot1xPort (c : Cfg) (n : Nat) : Option PortConf := (c.ports.get? n).filter (fun p => p.dot1x)

/-- One event. Ports that are not configured are ignored. -/
def step (c : Cfg) (o : Other) (s : St) : Ev → Option St
  | .up n => match c.ports.get? n with
    | some p => portUp c o s p
    | none => some s
  | .down n => match c.ports.get? n with
    | some p => portDown c o s p
    | none => some s
  | .login n mac vlan filter => (dot1xPort c n).bind (fun p => login c o s p mac vlan filter)
  | .logoff n mac => (dot1xPort c n).bind (fun p => logoff c o s p mac)
  | .fail n mac => (dot1xPort c n).bind (fun p => logoff c o s p mac)
  | .reload => some (reload s)

def run (c : Cfg) (o : Other) (s : St) (evs : List Ev) : Option St := evs.foldlM (step c o) s

end Faucet.Dot1x
