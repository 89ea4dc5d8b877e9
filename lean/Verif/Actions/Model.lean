import Verif.OpenFlow.Table
import Verif.Base.Sort

/-!
# Lists of actions (`faucet/valve_of.py`)
-/

namespace Faucet.Actions
open Faucet.OF

/-- The port of an output action. `ports_from_output_port_acts` reads `.port` of each action, which other kinds of
action do not have; here they are skipped. -/
def outPort? : Action → Option Nat
  | .output p => some p
  | _ => none

/-- Insert into a set kept as a list without repetition. -/
def setAdd {α : Type} [DecidableEq α] (s : List α) (a : α) : List α := if a ∈ s then s else s ++ [a]

/-- A Python set built from a sequence, as the list of its elements in order of insertion. -/
def mkSet {α : Type} [DecidableEq α] (l : List α) : List α := l.foldl setAdd []

/-- `ports_from_output_port_acts`, `faucet/valve_of.py` 634-642. -/
def portsFromActs (acts : List Action) : List Nat := mkSet (acts.filterMap outPort?)

/-- `dedupe_output_port_acts`, `faucet/valve_of.py` 645-655. -/
def dedupeOutputs (acts : List Action) : List Action :=
  (isort (fun a b => decide (a ≤ b)) (portsFromActs acts)).map Action.output

/-- State of the loop of `output_non_output_actions`: `deduped_acts`, `output_ports`, `all_nonoutput_actions`. -/
structure Dedup where
  acts : List Action := []
  ports : List Nat := []
  nonOut : List Action := []
deriving DecidableEq, Repr

/-- Body of the loop, `faucet/valve_of.py` 672-682. Non-output actions are compared by their printed form; the model
compares the actions. -/
def dedupStep (st : Dedup) (a : Action) : Dedup :=
  match a with
  | .output p =>
    if p ∈ st.ports then st else { acts := st.acts ++ [a], ports := st.ports ++ [p], nonOut := st.nonOut }
  | a => if a ∈ st.nonOut then st else { acts := st.acts ++ [a], ports := st.ports, nonOut := st.nonOut ++ [a] }

def dedupFold (acts : List Action) : Dedup := acts.foldl dedupStep {}

/-- `output_non_output_actions`, `faucet/valve_of.py` 658-684: de-duplicated actions, output ports, and non-output
actions other than `pop_vlan`. -/
def outputNonOutput (acts : List Action) : List Action × List Nat × List Action :=
  let d := dedupFold acts
  (d.acts, d.ports, d.nonOut.filter (fun a => a != .popVlan))

/-- Loop of `build_group_flood_buckets`, `faucet/valve_of.py` 970-979. -/
def bucketStep (st : List (List Action) × List Action) (a : Action) : List (List Action) × List Action :=
  match a with
  | .output p => (st.1 ++ [st.2 ++ [.output p]], st.2)
  | a => (st.1, st.2 ++ [a])

/-- `build_group_flood_buckets`, `faucet/valve_of.py` 970-979. -/
def floodBuckets (acts : List Action) : List (List Action) := (acts.foldl bucketStep ([], [])).1

end Faucet.Actions
