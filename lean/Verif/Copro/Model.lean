import Verif.OpenFlow.Eval
import Verif.FlowReorder.Flows

/-!
# Coprocessor ports

A coprocessor is attached to a port of the switch and has the switch send packets for it: one it hands over with VLAN id
`vlan_vid_base + n` is to leave by port `n`. `faucet/valve_coprocessor.py` and when it is called by `faucet/valve.py`.
-/

namespace Faucet.Copro
open Faucet.OF

/-- What the configuration says about coprocessors. -/
structure Cfg where
  /-- Ids of the tables `vlan`, `copro`, `eth_src`, `eth_dst` and of the first output table, which is `eth_dst` or the table for
  hairpin ports (`faucet/valve_switch_standalone.py` 144-146). -/
  tv : Nat
  tc : Nat
  ts : Nat
  tdst : Nat
  tout : Nat
  /-- `lowest_priority`, `low_priority`, `high_priority`. -/
  lowest : Nat
  low : Nat
  high : Nat
  /-- `dp.ports`. -/
  ports : List Nat
  /-- The coprocessor ports, with their `vlan_vid_base` (`faucet/port.py` 403-411). -/
  copro : List (Nat × Nat)
deriving DecidableEq, Repr

/-- The rule that hands packets of the port to the `copro` table, `faucet/valve_coprocessor.py` 52-58. -/
def vlanRule (c : Cfg) (j : Nat) : FlowMod := ⟨.add, c.tv, c.low, ⟨[⟨fInPort, j, none⟩], 0⟩, 0, [.goto c.tc], none, 0, 0⟩

/-- No learning from the port, `faucet/valve_coprocessor.py` 59-65. -/
def srcRule (c : Cfg) (j : Nat) : FlowMod := ⟨.add, c.ts, c.high, ⟨[⟨fInPort, j, none⟩], 0⟩, 0, [.goto c.tout], none, 0, 0⟩

/-- Output by VLAN id, `faucet/valve_coprocessor.py` 67-83. -/
def outRule (c : Cfg) (base n : Nat) : FlowMod :=
  ⟨.add, c.tc, c.high, ⟨[⟨fVlanVid, vidPresent (base + n), none⟩], 0⟩, 0, [.apply [.popVlan, .output n]], none, 0, 0⟩

/-- `CoprocessorManager.add_port`, `faucet/valve_coprocessor.py` 46-84. -/
def addPort (c : Cfg) (jb : Nat × Nat) : List OfMsg :=
  .flow (vlanRule c jb.1) :: .flow (srcRule c jb.1) :: c.ports.map (fun n => .flow (outRule c jb.2 n))

/-- The rule for what else gets to the `copro` table: `miss_goto` is `eth_dst`, `faucet/valve.py`
395-410, `faucet/faucet_pipeline.py` 121-128. -/
def missRule (c : Cfg) : FlowMod := ⟨.add, c.tc, c.lowest, ⟨[], 0⟩, 0, [.goto c.tdst], none, 0, 0⟩

inductive Ev where
  /-- The switch connects with these ports up, after which the configuration is as given: all flows are deleted, then the rules are
  made; `others` are the messages of other parts of FAUCET. A reload that is a cold start is such a connection; one that makes the `copro` table
  come or go is a cold start (`_pipeline_change`, `faucet/valve.py` 1558-1570). -/
  | connect (c : Cfg) (up : List Nat) (others : List OfMsg)
  /-- A port comes up: `ports_add`, `faucet/valve.py` 845-885. -/
  | portUp (j : Nat) (others : List OfMsg)
  /-- A port goes down: `CoprocessorManager` has no `del_port`, `faucet/valve_manager_base.py` 40-42. -/
  | portDown (j : Nat) (others : List OfMsg)
  /-- A reload that is no cold start, `faucet/valve.py` 1621-1690; `again` are the ports that are added again because of changes to
  other settings of theirs. -/
  | reload (new : Cfg) (again : List Nat) (others : List OfMsg)

structure St where
  cfg : Cfg
  /-- The ports that are up, or were since the switch connected. -/
  seen : List Nat
  sw : Switch

/-- The coprocessor ports among some ports. -/
def among (c : Cfg) (js : List Nat) : List (Nat × Nat) := c.copro.filter (fun jb => decide (jb.1 ∈ js))

/-- One event. Simplified: messages take effect in the order they are made (C07), those of other parts of FAUCET after those for
coprocessors, and a port that was up counts as up at a reload. Nothing is deleted for a port that was a coprocessor's:
`ValveSwitchManager.del_port` only deletes rules of ports with VLANs, `faucet/valve_switch_standalone.py` 642-668. -/
def step (s : St) : Ev → St
  | .connect c up others =>
    ⟨c, up, Switch.execAll { s.sw with flows := fun _ => none } (OfMsg.flow (missRule c) :: (among c up).flatMap (addPort c) ++ others)⟩
  | .portUp j others => ⟨s.cfg, j :: s.seen, s.sw.execAll ((among s.cfg [j]).flatMap (addPort s.cfg) ++ others)⟩
  | .portDown _ others => ⟨s.cfg, s.seen, s.sw.execAll others⟩
  | .reload new again others =>
    ⟨new, s.seen, s.sw.execAll (((among new s.seen).filter (fun jb => decide (jb ∉ s.cfg.copro ∨ jb.1 ∈ again))).flatMap (addPort new) ++
      others)⟩

def run (s : St) (h : List Ev) : St := h.foldl step s

/-! ## Specification -/

/-- Tables and priorities are as in FAUCET, ports are numbers of ports, and the VLAN ids for coprocessors are ids and lead to one port
each. Neither of the latter is checked by the code. -/
structure Valid (c : Cfg) : Prop where
  tables : c.tv ≠ c.tc ∧ c.ts ≠ c.tc ∧ c.ts ≠ c.tv
  prios : c.lowest < c.low ∧ c.low < c.high
  nums : ∀ n ∈ c.ports, n < 0xffffff00
  vids : ∀ jb ∈ c.copro, ∀ n ∈ c.ports, jb.2 + n < 4096
  apart : ∀ jb ∈ c.copro, ∀ jb' ∈ c.copro, ∀ n ∈ c.ports, ∀ n' ∈ c.ports, jb.2 + n = jb'.2 + n' → n = n'

/-- Messages that do not concern coprocessors: they change no flow of the `copro` table and none that leads to it. -/
def Aside (c : Cfg) (ms : List OfMsg) : Prop :=
  ∀ m ∈ ms, ∀ (t : Slot) (b : Option Body),
    (t.table = c.tc ∨ (t.table = c.tv ∧ t.priority = c.low ∧ ∃ jb ∈ c.copro, t.items = [⟨fInPort, jb.1, none⟩])) → m.onFlow t b = b

/-- Since the switch connected nothing was changed about coprocessors and about which ports there are, and other messages do not concern
coprocessors. -/
def Steady (c : Cfg) : Ev → Prop
  | .connect _ _ _ => False
  | .portUp _ others => Aside c others
  | .portDown _ others => Aside c others
  | .reload new _ others => new = c ∧ Aside c others

end Faucet.Copro
