import Verif.OpenFlow.Msg

/-!
# Building flow mods (`faucet/valve_table.py`, `faucet/valve_of.py`)
-/

namespace Faucet.OF

/-! ## Match fields, numbered by OXM field (OpenFlow 1.3.5, table 12) -/

def fInPort : Nat := 0
def fMetadata : Nat := 2
def fEthDst : Nat := 3
def fEthSrc : Nat := 4
def fEthType : Nat := 5
def fVlanVid : Nat := 6
def fVlanPcp : Nat := 7

/-- `ofp.OFPP_IN_PORT` and `ofp.OFPP_CONTROLLER`. -/
def portInPort : Nat := 0xfffffff8
def portController : Nat := 0xfffffffd

/-- `ofp.OFPVID_PRESENT`. -/
def vidPresentBit : Nat := 0x1000

/-- `vid_present`, `faucet/valve_of.py` 530-538. -/
def vidPresent (vid : Nat) : Nat := vid ||| vidPresentBit

/-- `devid_present`, `faucet/valve_of.py` 541-549: `vid ^ OFPVID_PRESENT`. -/
def devidPresent (vid : Nat) : Nat := vid ^^^ vidPresentBit

/-- `PCP_EXT_PORT_FLAG` and `PCP_NONEXT_PORT_FLAG`, `faucet/valve_of.py` 66-68. -/
def pcpExt : Nat := 2
def pcpNonExt : Nat := 0

/-! ## Priorities: `faucet/valve_manager_base.py` 14-19, `faucet/valve_switch_standalone.py` 151-156 -/

def lowPriority : Nat := 0x1000
def matchPriority : Nat := 0x2000
def highPriority : Nat := 0x4000
def filterPriority : Nat := 0x5000

/-! ## `ValveTable` -/

/-- The part of a `ValveTable` that is needed to build flow mods: `faucet/valve_table.py` 28-58. -/
structure Table where
  id : Nat
  cookie : Nat := 0
deriving DecidableEq, Repr

/-- `action.type in (OFPAT_GROUP, OFPAT_OUTPUT)`, `faucet/valve_table.py` 182. -/
def Action.isOutput : Action → Bool
  | .output _ => true
  | .group _ => true
  | _ => false

/-- `valve_of.is_ct(action) and hasattr(action, "recirc_table")`, `faucet/valve_table.py` 210-217:
every `NXActionCT` has that attribute. -/
def Action.isCt : Action → Bool
  | .ct _ => true
  | _ => false

/-- The loop of `ValveTable._trim_actions`, `faucet/valve_table.py` 179-187: `(new_actions, pending_actions)`. -/
def trimStep (st : List Action × List Action) (a : Action) : List Action × List Action :=
  if a.isOutput then (st.1 ++ st.2 ++ [a], []) else (st.1, st.2 ++ [a])

/-- `ValveTable._trim_actions`, `faucet/valve_table.py` 178-199. The assertion on the set fields
(188-198) is not modelled. -/
def trimActions (acts : List Action) : List Action := (acts.foldl trimStep ([], [])).1

def Inst.isGoto : Inst → Bool
  | .goto _ => true
  | _ => false

/-- Lines 206-225 of `faucet/valve_table.py` for one instruction. -/
def trimOne (gotoPresent : Bool) : Inst → Option Inst
  | .apply acts =>
    let acts' := if !gotoPresent && !acts.any Action.isCt then trimActions acts else acts
    if acts' = [] then none else some (.apply acts')
  | i => some i

/-- `ValveTable._trim_inst`, `faucet/valve_table.py` 201-226. -/
def trimInst (inst : List Inst) : List Inst := inst.filterMap (trimOne (inst.any Inst.isGoto))

/-- `ValveTable.flowmod`, `faucet/valve_table.py` 228-268, for `OFPFC_ADD`. The assertions of
`_verify_flowmod` (140-176) and the notification flag are not modelled. -/
def Table.flowadd (t : Table) (items : List MatchItem) (priority : Nat) (inst : List Inst)
    (hard : Nat := 0) (idle : Nat := 0) : OfMsg :=
  .flow { cmd := .add, table := t.id, priority := priority, mtch := ⟨items, 0⟩, cookie := t.cookie,
          inst := trimInst inst, hard := hard, idle := idle }

/-- `ValveTable.flowdel`, `faucet/valve_table.py` 270-283; priority defaults to 0. -/
def Table.flowdel (t : Table) (items : List MatchItem) (priority : Nat := 0) (outPort : Option Nat := none)
    (strict : Bool := false) : OfMsg :=
  .flow { cmd := if strict then .deleteStrict else .delete, table := t.id, priority := priority,
          mtch := ⟨items, 0⟩, cookie := t.cookie, outPort := outPort }

/-- `ValveTable.flowdrop`, `faucet/valve_table.py` 285-289. -/
def Table.flowdrop (t : Table) (items : List MatchItem) (priority : Nat) (hard : Nat := 0) : OfMsg :=
  t.flowadd items priority [] hard 0

end Faucet.OF
