import Verif.OpenFlow.Datapath

/-!
# The tables of the pipeline

`faucet/faucet_pipeline.py`, `faucet/dp.py` 428-500, 521-658 and 703-717, `faucet/valve_table.py` 56-72, and every place
that makes a goto instruction. Only names, ids, `next_tables` and `miss_goto` of the tables are modelled (not their sizes,
match types and set fields). An exception is `none`.
-/

namespace Faucet.Pipeline
open Faucet.OF

/-- The names of the tables, in the order of `FAUCET_PIPELINE`, `faucet/faucet_pipeline.py` 214-229. -/
inductive Tbl where
  | portAcl | vlan | copro | vlanAcl | classification | ethSrc | ipv4Fib | ipv6Fib | vip | hairpin | ethDst | egressAcl | egress | flood
deriving DecidableEq, Repr

/-- `ValveTableConfig`, `faucet/faucet_pipeline.py` 23-60. -/
structure TableConfig where
  name : Tbl
  id : Nat
  miss : Option Tbl := none
  next : List Tbl := []
deriving DecidableEq, Repr

/-- `_NEXT_ETH` and `_NEXT_VIP`, `faucet/faucet_pipeline.py` 80-81. -/
def nextEth : List Tbl := [.hairpin, .ethDst, .flood]
def nextVip : List Tbl := .vip :: nextEth

/-- `FAUCET_PIPELINE`, `faucet/faucet_pipeline.py` 102-229: `copro` and `vlan_acl` have the same id. -/
def standard : List TableConfig :=
  [ { name := .portAcl, id := 0, next := .vlan :: nextVip },
    { name := .vlan, id := 1, next := [.copro, .vlanAcl, .classification, .ethSrc] },
    { name := .copro, id := 2, miss := some .ethDst, next := [.ethDst] },
    { name := .vlanAcl, id := 2, next := [.classification, .ethSrc] ++ nextEth },
    { name := .classification, id := 3, miss := some .ethSrc, next := [.ethSrc, .ipv4Fib, .ipv6Fib] ++ nextVip },
    { name := .ethSrc, id := 4, miss := some .ethDst, next := [.ipv4Fib, .ipv6Fib] ++ nextVip },
    { name := .ipv4Fib, id := 5, next := nextVip },
    { name := .ipv6Fib, id := 6, next := nextVip },
    { name := .vip, id := 7, next := nextEth },
    { name := .hairpin, id := 8, miss := some .ethDst },
    { name := .ethDst, id := 9, miss := some .flood, next := [.egress, .egressAcl] },
    { name := .egressAcl, id := 10, next := [.egress] },
    { name := .egress, id := 11, miss := some .flood, next := [.flood] },
    { name := .flood, id := 12 } ]

/-- What the configuration of a datapath says about its tables: `STATIC_TABLE_IDS` of the hardware; whether there are port,
VLAN and egress ACLs (the keys of what `_generate_acl_tables` returns, `faucet/dp.py` 428-500); the setting
`egress_pipeline`; whether a VLAN has IPv4 or IPv6 addresses; hairpin ports; `use_classification`; coprocessor ports. -/
structure Conf where
  static : Bool := false
  portAcls : Bool := false
  vlanAcls : Bool := false
  egressAcls : Bool := false
  egress : Bool := false
  ipv4 : Bool := false
  ipv6 : Bool := false
  hairpin : Bool := false
  classification : Bool := false
  copro : Bool := false
deriving DecidableEq, Repr

/-- `self.egress_pipeline` after `_generate_acl_tables`, `faucet/dp.py` 448-451. -/
def Conf.egressPipeline (c : Conf) : Bool := c.egress || c.egressAcls

/-- `included_tables`, `faucet/dp.py` 533-558. -/
def included (c : Conf) : Tbl → Bool
  | .vlan => true
  | .ethSrc => true
  | .ethDst => true
  | .flood => true
  | .portAcl => c.portAcls || c.static
  | .vlanAcl => c.vlanAcls
  | .egressAcl => c.egressAcls
  | .ipv4Fib => c.ipv4
  | .ipv6Fib => c.ipv6
  | .vip => c.ipv4 || c.ipv6
  | .hairpin => c.hairpin
  | .classification => c.classification
  | .egress => c.egressPipeline
  | .copro => c.copro

/-- `canonical_configs`, `faucet/dp.py` 559-563. -/
def canonical (c : Conf) : List TableConfig := standard.filter (fun t => included c t.name)

/-- One turn of the loop of `faucet/dp.py` 565-576. An ACL table is made anew, with the id and next tables of the standard
one (490-499). -/
def numbered (c : Conf) (t : TableConfig) (n : Nat) : TableConfig := { t with id := if c.static then t.id else n }

/-- `faucet/dp.py` 586-587. -/
def missOf (c : Conf) (t : TableConfig) : Option Tbl :=
  if t.name = .ethDst ∧ included c .egressAcl then some .egressAcl else t.miss

/-- `faucet/dp.py` 637-641. -/
def nextOf (c : Conf) (t : TableConfig) : List Tbl := t.next.filter (included c)

def finish (c : Conf) (t : TableConfig) : TableConfig := { t with miss := missOf c t, next := nextOf c t }

/-- `_configure_tables`, `faucet/dp.py` 521-658. -/
def numberFrom (c : Conf) : Nat → List TableConfig → List TableConfig
  | _, [] => []
  | n, t :: ts => finish c (numbered c t n) :: numberFrom c (n + 1) ts

def tables (c : Conf) : List TableConfig := numberFrom c 0 (canonical c)

/-- `dp.tables[name]`; `none` is a `KeyError`. -/
def table (c : Conf) (n : Tbl) : Option TableConfig := (tables c).find? (fun t => t.name == n)

/-- `classification_table`, `output_table`, `faucet/dp.py` 703-717. -/
def classTable (c : Conf) : Tbl := if c.classification then .classification else .ethSrc
def outTable (c : Conf) : Tbl := if c.hairpin then .hairpin else .ethDst

/-! ## Goto instructions -/

/-- `ValveTable.goto`, `faucet/valve_table.py` 56-61: the table must be a next table. -/
def goto (c : Conf) (src dst : Tbl) : Option Inst :=
  (table c src).bind (fun s => (table c dst).bind (fun d => if s.next.contains dst then some (.goto d.id) else none))

/-- `goto_miss`, `faucet/valve_table.py` 66-71. -/
def gotoMiss (c : Conf) (src dst : Tbl) : Option Inst :=
  (table c src).bind (fun s => (table c dst).bind (fun d => if s.miss = some dst then some (.goto d.id) else none))

/-- `goto_this`, `faucet/valve_table.py` 63-64, and `goto_table` and `goto_table_id`, `faucet/valve_of.py` 480-515: no
check. -/
def gotoThis (c : Conf) (dst : Tbl) : Option Inst := (table c dst).map (fun d => .goto d.id)

/-- `metadata_goto_table` in `ValvePipeline.output`, `faucet/valve_pipeline.py` 122-136: where a packet for a known host is
sent when there is an egress pipeline. -/
def outputTo (c : Conf) : Tbl := if included c .egressAcl then .egressAcl else .egress

/-- Every place that makes a goto: the table of the rule and the instruction. -/
inductive Site (c : Conf) : Tbl → Option Inst → Prop
  /-- default rules, `faucet/valve.py` 395-411 -/
  | miss (t : Tbl) (m : Tbl) (has : included c t = true) (is : (table c t).bind (fun x => x.miss) = some m) :
      Site c t (gotoMiss c t m)
  /-- VLAN rules of a port, `faucet/valve_switch_standalone.py` 553-577: VLANs with ACLs, and others -/
  | portVlanAcl (has : c.vlanAcls = true) : Site c .vlan (goto c .vlan .vlanAcl)
  | portVlan : Site c .vlan (goto c .vlan (classTable c))
  /-- coprocessor ports, `faucet/valve_coprocessor.py` 46-63 -/
  | copro (has : c.copro = true) : Site c .vlan (goto c .vlan .copro)
  | coproSrc (has : c.copro = true) : Site c .ethSrc (goto c .ethSrc (outTable c))
  /-- unknown hosts, known hosts, stack edge hosts: `faucet/valve_switch_standalone.py` 529-537 and 827,
  `faucet/valve_switch_stack.py` 492 -/
  | ethSrc : Site c .ethSrc (goto c .ethSrc (outTable c))
  /-- stack ports, `faucet/valve_switch_stack.py` 402-409 -/
  | stackPort : Site c .vlan (gotoThis c (classTable c))
  /-- broadcast on stacks, `faucet/valve_switch_stack.py` 217-223 -/
  | stackFlood : Site c (classTable c) (gotoThis c .flood)
  /-- `output` to known hosts, `faucet/valve_switch_standalone.py` 853-900 -/
  | known (has : c.egressPipeline = true) : Site c .ethDst (gotoThis c (outputTo c))
  | hairpin (has : c.egressPipeline = true) (hp : c.hairpin = true) : Site c .hairpin (gotoThis c (outputTo c))
  /-- routing: to the FIB, `faucet/valve_route.py` 419-425; to the VIP table, 431-444, 1009-1013, 1183, 1228, 1253-1258;
  from the FIB, 529-540; other ARP, 1037-1044 and `_controller_and_flood`, 262-269 -/
  | toFib4 (has : c.ipv4 = true) : Site c (classTable c) (gotoThis c .ipv4Fib)
  | toFib6 (has : c.ipv6 = true) : Site c (classTable c) (gotoThis c .ipv6Fib)
  | toVip (has : (c.ipv4 || c.ipv6) = true) : Site c (classTable c) (gotoThis c .vip)
  | fib4Vip (has : c.ipv4 = true) : Site c .ipv4Fib (goto c .ipv4Fib .vip)
  | fib6Vip (has : c.ipv6 = true) : Site c .ipv6Fib (goto c .ipv6Fib .vip)
  | fib4Out (has : c.ipv4 = true) : Site c .ipv4Fib (gotoThis c (outTable c))
  | fib6Out (has : c.ipv6 = true) : Site c .ipv6Fib (gotoThis c (outTable c))
  | vipOut (has : (c.ipv4 || c.ipv6) = true) : Site c .vip (gotoThis c (outTable c))
  /-- ACLs: `faucet/valve_acl.py` 458-474, 485-507, 535-571, 574-582, 802-843; to the table of a tunnel that ends here
  (`faucet/acl.py` 661, 670, 725, 751; `faucet/valve.py` 256-263) -/
  | aclVlan (has : included c .portAcl = true) : Site c .portAcl (gotoThis c .vlan)
  | aclForce (has : included c .portAcl = true) : Site c .portAcl (gotoThis c (outTable c))
  | aclTunnel (has : included c .portAcl = true) : Site c .portAcl (gotoThis c .ethDst)
  | vlanAclOn (has : c.vlanAcls = true) : Site c .vlanAcl (gotoThis c (classTable c))
  | vlanAclForce (has : c.vlanAcls = true) : Site c .vlanAcl (gotoThis c (outTable c))
  | egressAcl (has : c.egressAcls = true) : Site c .egressAcl (gotoThis c .egress)

end Faucet.Pipeline
