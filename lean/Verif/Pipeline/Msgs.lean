import Verif.Pipeline.Run
import Verif.Acl.Model
import Verif.Dot1x.Model
import Verif.Learn.Model
import Verif.Flood.Model
import Verif.Route.Model

/-!
# The messages of the managers go forward

The managers of the other areas, given the tables of the configuration (`faucet/valve.py` 195-340), and the rules that are
modelled only here: default rules and the VLAN rules of ports.
-/

namespace Faucet.Pipeline
open Faucet.OF

/-- `dp.tables[name].table_id`, for a table that exists. -/
def idOf (c : Conf) (n : Tbl) : Nat := ((table c n).map (·.id)).getD 0

/-- The ids of the tables. -/
def ids (c : Conf) : List Nat := (tables c).map (·.id)

/-! ## Rules modelled only here -/

/-- `_add_default_drop_flows`, `faucet/valve.py` 395-411, for one table. -/
def defaultFlow (c : Conf) (t : TableConfig) : Option OfMsg :=
  match t.miss with
  | some m => (gotoMiss c t.name m).map (fun i => (Table.mk t.id 0).flowadd [] 0 [i])
  | none => some ((Table.mk t.id 0).flowdrop [] 0)

/-- The rule for unknown hosts, `add_vlan`, `faucet/valve_switch_standalone.py` 529-539, with `flowcontroller`,
`faucet/valve_table.py` 293-302. -/
def unknownFlow (c : Conf) (vid : Nat) : Option OfMsg :=
  (goto c .ethSrc (outTable c)).map (fun i =>
    (Table.mk (idOf c .ethSrc) 0).flowadd [⟨fVlanVid, vidPresent vid, none⟩] lowPriority
      [.apply [.output portController], i])

/-- A VLAN of a port. -/
structure PortVlan where
  vid : Nat
  port : Nat
  mirror : List Nat := []
  push : Bool := false
  aclsIn : Bool := false
  /-- the external forwarding flag, if there are external ports -/
  ext : Option Nat := none

/-- `_find_forwarding_table`, `faucet/valve_switch_standalone.py` 552-555. -/
def forwardingTable (c : Conf) (v : PortVlan) : Tbl := if v.aclsIn then .vlanAcl else classTable c

/-- `_port_add_vlan_rules`, `faucet/valve_switch_standalone.py` 557-577. -/
def portVlanFlow (c : Conf) (v : PortVlan) : Option OfMsg :=
  (goto c .vlan (forwardingTable c v)).map (fun i =>
    (Table.mk (idOf c .vlan) 0).flowadd
      [⟨fInPort, v.port, none⟩, ⟨fVlanVid, if v.push then 0 else vidPresent v.vid, none⟩] lowPriority
      [.apply (v.mirror.map .output ++ (if v.push then [.pushVlan 0x8100, .setField fVlanVid (vidPresent v.vid)] else []) ++
        (v.ext.toList).map (.setField fVlanPcp)), i])

/-- The rule for tagged packets of a stack port, `faucet/valve_switch_stack.py` 402-409. -/
def stackPortFlow (c : Conf) (port : Nat) : Option OfMsg :=
  (gotoThis c (classTable c)).map (fun i =>
    (Table.mk (idOf c .vlan) 0).flowadd [⟨fInPort, port, none⟩] lowPriority [i])

/-! ## How the managers are given the tables -/

/-- The tables given to the switch manager. -/
structure LearnWired (c : Conf) (l : Learn.Cfg) : Prop where
  src : l.ethSrc.id = idOf c .ethSrc
  dst : l.ethDst.id = idOf c .ethDst
  hairpin : l.hairpin.map (·.id) = (table c .hairpin).map (·.id)
  egress : l.egress = if c.egressPipeline then some (idOf c (outputTo c)) else none

/-- The tables given to the ACL manager. -/
structure AclWired (c : Conf) (m : Acl.Mgr) : Prop where
  port : m.portTable.map (·.id) = (table c .portAcl).map (·.id)
  vlan : m.vlanTable.map (·.id) = (table c .vlanAcl).map (·.id)
  egress : m.egressTable.map (·.id) = (table c .egressAcl).map (·.id)
  toVlan : m.toVlan = idOf c .vlan
  toClass : m.toClass = idOf c (classTable c)
  toL2 : m.toL2 = idOf c (outTable c)
  toEgress : c.egressPipeline = true → m.toEgress = idOf c .egress

/-- The tables given to the dot1x manager; there are dot1x ports, so there is a port ACL table. -/
structure Dot1xWired (c : Conf) (d : Dot1x.Cfg) : Prop where
  has : included c .portAcl = true
  port : d.table.id = idOf c .portAcl
  toVlan : d.vlanTable = idOf c .vlan

/-- The tables given to a routing manager: that of IPv4 or that of IPv6. -/
structure RouteWired (c : Conf) (fib : Tbl) (r : Route.Mgr) : Prop where
  which : fib = .ipv4Fib ∨ fib = .ipv6Fib
  has : included c fib = true
  fibT : r.fib.id = idOf c fib
  vipT : r.vip.id = idOf c .vip
  l2 : r.toL2 = idOf c (outTable c)

/-- An output that a user can write has no goto: `output_actions_types`, `faucet/acl.py` 92-102. -/
def NoGoto : Acl.Output → Prop
  | .dict d => d.goto = none
  | .ordered l => ∀ n, Acl.OutAct.goto n ∉ l

def AclNoGoto (a : Acl.Acl) : Prop := ∀ r ∈ a.rules, ∀ x, r.actions = some x → ∀ o, x.output = some o → NoGoto o

/-- **Everything the managers send**, given a configuration. -/
inductive Sent (c : Conf) : OfMsg → Prop
  | defaults {t m} : t ∈ tables c → defaultFlow c t = some m → Sent c m
  | unknown {vid m} : unknownFlow c vid = some m → Sent c m
  | portVlan {v m} : (v.aclsIn = true → c.vlanAcls = true) → portVlanFlow c v = some m → Sent c m
  | stackPort {port m} : stackPortFlow c port = some m → Sent c m
  | learn {l st now p vid mac ms st' m} : LearnWired c l → Learn.rcvPacket l st now p vid mac = some (ms, st') → m ∈ ms → Sent c m
  | sweep {l st now vid ms st' m} : LearnWired c l → Learn.sweep l st now vid = some (ms, st') → m ∈ ms → Sent c m
  | portGone {l st n ms st' m} : LearnWired c l → Learn.portDelete l st n = some (ms, st') → m ∈ ms → Sent c m
  | portDown {l n m} : LearnWired c l → m ∈ Learn.portDown l n → Sent c m
  | aclInit {enc g ms m} : AclWired c g → (∀ a ∈ g.dpAcls, AclNoGoto a) → Acl.initTables enc g = some ms → m ∈ ms → Sent c m
  | aclPort {enc g p ms m} : AclWired c g → (∀ a ∈ p.aclsIn, AclNoGoto a) → Acl.coldStartPort enc g p = some ms → m ∈ ms → Sent c m
  | aclVlan {enc g v ms m} : AclWired c g → (∀ a ∈ v.aclsIn ++ v.aclsOut, AclNoGoto a) → Acl.addVlan enc g v = some ms →
      m ∈ ms → Sent c m
  | mac {d port mac} : Dot1xWired c d → Sent c (Dot1x.addAuthedMac d port mac)
  | macAcl {d acl port mac fs f} : Dot1xWired c d → AclNoGoto acl → Dot1x.addPortAcl d acl port mac = some fs → f ∈ fs →
      Sent c (.flow f)
  | eapol {d port m} : Dot1xWired c d → m ∈ Dot1x.flowPair d port → Sent c m
  | route {fib r v dst mac u m} : RouteWired c fib r → m ∈ Route.Mgr.addResolved r v dst mac u → Sent c m
  | blackhole {fib r v ip hard m} : RouteWired c fib r → m ∈ Route.Mgr.blackhole r v ip hard → Sent c m
  | vips {fib r v m} : RouteWired c fib r → m ∈ Route.Mgr.addVlan r v → Sent c m
  | flood {f v cs mo m} : m ∈ Flood.floodRules f v cs mo → Sent c m
  | reserved {f m} : m ∈ Flood.initialise f → Sent c m
  /-- deletions of whatever kind, groups, meters, packets -/
  | delete {f : FlowMod} : f.cmd = .delete ∨ f.cmd = .deleteStrict → Sent c (.flow f)
  | group {g} : Sent c (.group g)
  | meter {g} : Sent c (.meter g)
  | config {n} : Sent c (.config n)
  | tfm {n} : Sent c (.tfm n)
  | packetOut {n} : Sent c (.packetOut n)
  | barrier : Sent c .barrier

/-! ## Forward -/

theorem idOf_fwd {c : Conf} {a b : Tbl} (ha : included c a = true) (hb : included c b = true) (h : rank a < rank b)
    (n : ¬ (a = .copro ∧ b = .vlanAcl)) : idOf c a < idOf c b ∧ idOf c b ∈ ids c := by
  obtain ⟨s, hs⟩ := exists_table ha
  obtain ⟨d, hd⟩ := exists_table hb
  have e1 : idOf c a = s.id := by simp [idOf, hs]
  have e2 : idOf c b = d.id := by simp [idOf, hd]
  rw [e1, e2]
  exact ⟨id_lt hs hd h (fun _ => n), List.mem_map.2 ⟨d, (table_mem hd).1, rfl⟩⟩

theorem good_fwd {c : Conf} {a : Tbl} {i : Option Inst} {j : Inst} (h : Good c a i) (e : i = some j) :
    ∃ n, j = .goto n ∧ idOf c a < n ∧ n ∈ ids c := by
  obtain ⟨s, hs, es, d, hd, e', lt⟩ := h
  rw [e] at e'
  cases e'
  refine ⟨d.id, rfl, ?_, List.mem_map.2 ⟨d, hd, rfl⟩⟩
  have : idOf c a = s.id := by
    obtain ⟨x, hx⟩ := exists_table (by rw [← es]; exact (mem_tables hs).1 : included c a = true)
    have hx' := table_mem hx
    have : idOf c a = x.id := by simp [idOf, hx]
    rw [this]
    have := names_inj hs hx'.1 (by rw [es, hx'.2])
    rw [this]
  rw [this]
  exact lt

theorem mem_trimInst {inst : List Inst} {n : Nat} (h : .goto n ∈ trimInst inst) : .goto n ∈ inst := by
  unfold trimInst at h
  obtain ⟨i, hi, e⟩ := List.mem_filterMap.1 h
  cases i with
  | apply as =>
    simp only [trimOne] at e
    split at e <;> simp at e
  | goto t => simp only [trimOne, Option.some.injEq] at e; rw [← e]; exact hi
  | meter t => simp [trimOne] at e
  | writeMetadata a b => simp [trimOne] at e

theorem fwd_trim {I : List Nat} {t : Nat} {inst : List Inst} (h : FwdInst I t inst) : FwdInst I t (trimInst inst) :=
  fun n hn => h n (mem_trimInst hn)

theorem fwd_add {I : List Nat} {t : Table} {items : List MatchItem} {prio : Nat} {inst : List Inst} {hard idle : Nat}
    (h : FwdInst I t.id inst) : FwdMsg I (t.flowadd items prio inst hard idle) := fun _ => fwd_trim h

theorem fwd_del {I : List Nat} {t : Table} {items : List MatchItem} {prio : Nat} {o : Option Nat} {s : Bool} :
    FwdMsg I (t.flowdel items prio o s) := by
  intro h
  cases s <;> simp at h

theorem fwd_drop {I : List Nat} {t : Table} {items : List MatchItem} {prio hard : Nat} :
    FwdMsg I (t.flowdrop items prio hard) := fwd_add (fun n hn => by simp at hn)

theorem fwd_goto {I : List Nat} {t n : Nat} (h : t < n ∧ n ∈ I) : FwdInst I t [.goto n] := by
  intro k hk
  simp at hk
  rw [hk]; exact h

theorem fwd_apply {I : List Nat} {t : Nat} {as : List Action} : FwdInst I t [.apply as] := by
  intro k hk
  simp at hk

end Faucet.Pipeline
