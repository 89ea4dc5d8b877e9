import Verif.OpenFlow.Msg

/-!
# Specification for message reordering (C07, C08, C09)

This file uses only the message and switch definitions of `Verif.OpenFlow.Msg`.
-/

namespace Faucet.FlowReorder
open Faucet.OF

/-- The message deletes flows, groups or meters. -/
def isDeletion : OfMsg → Bool
  | .flow f => f.cmd == .delete || f.cmd == .deleteStrict
  | .group g => g.cmd == .delete
  | .meter m => m.cmd == .delete
  | _ => false

/-- The message adds or modifies a flow. -/
def isFlowAdd : OfMsg → Bool
  | .flow f => f.cmd == .add || f.cmd == .modifyStrict
  | _ => false

/-- The message concerns the flow, group or meter tables. -/
def isState : OfMsg → Bool
  | .flow _ | .group _ | .meter _ => true
  | _ => false

/-- What the batch means: all of its deletions, then everything else, each in the order given. -/
def deletesFirst (ms : List OfMsg) : List OfMsg :=
  ms.filter isDeletion ++ ms.filter (fun m => !isDeletion m)

/-- Deletes that span all tables have no output-port filter and are not strict: what FAUCET's
`wildcard_table.flowdel(match)` builds. -/
def WideDeletesPlain (ms : List OfMsg) : Prop :=
  ∀ f, .flow f ∈ ms → (f.cmd = .delete ∨ f.cmd = .deleteStrict) → f.table = tableAll →
    f.cmd = .delete ∧ f.outPort = none

/-- Two additions for the same flow (table, priority, match) agree on cookie, match object and command. -/
def AddsConsistent (ms : List OfMsg) : Prop :=
  ∀ f g, .flow f ∈ ms → .flow g ∈ ms → isFlowAdd (.flow f) → isFlowAdd (.flow g) → f.slot = g.slot →
    f.mtch = g.mtch ∧ f.cookie = g.cookie ∧ f.cmd = g.cmd

/-- A deletion and an addition agree on match object, cookie, priority and table. -/
def SameKey (d a : FlowMod) : Prop :=
  d.mtch = a.mtch ∧ d.cookie = a.cookie ∧ d.priority = a.priority ∧ d.table = a.table

/-- Could a delete, with some choice of actions for the flow, remove the flow in this slot? -/
def reaches (d : FlowMod) (s : Slot) : Prop :=
  match d.cmd with
  | .delete => d.tableOk s.table ∧ coversItems d.mtch.items s.items
  | .deleteStrict => d.tableOk s.table ∧ d.priority = s.priority ∧ d.mtch.items = s.items
  | _ => False

/-- A slot is shadowed if the batch has a deletion reaching it that shares its key with an addition of the
batch, and that addition does not itself (over)write the slot. -/
def Shadowed (ms : List OfMsg) (s : Slot) : Prop :=
  ∃ d a, .flow d ∈ ms ∧ .flow a ∈ ms ∧ isDeletion (.flow d) ∧ isFlowAdd (.flow a) ∧ SameKey d a ∧
    reaches d s ∧ ¬ (a.cmd = .add ∧ a.slot = s)

/-- Every deletion of the batch that shares its key with an addition is strict, in one table, and the
message sharing its key is a plain add. -/
def SharedKeysStrict (ms : List OfMsg) : Prop :=
  ∀ d a, .flow d ∈ ms → .flow a ∈ ms → isDeletion (.flow d) → isFlowAdd (.flow a) → SameKey d a →
    d.cmd = .deleteStrict ∧ d.table ≠ tableAll ∧ a.cmd = .add

/-- Additions go to one real table (`OFPTT_ALL` is not allowed in an add). -/
def AddsInOneTable (ms : List OfMsg) : Prop :=
  ∀ f, .flow f ∈ ms → isFlowAdd (.flow f) → f.table ≠ tableAll

/-- Stage of a message: configuration, deletion, table features, group, meter, flow, other, packet out. -/
def stage : OfMsg → Nat
  | .config _ => 0
  | .tfm _ => 2
  | .packetOut _ => 7
  | .barrier => 6
  | .other _ => 6
  | .flow f => if f.cmd == .delete || f.cmd == .deleteStrict then 1 else 5
  | .group g => if g.cmd == .delete then 1 else 3
  | .meter m => if m.cmd == .delete then 1 else 4

/-- Equal up to the identity of the Python match object. -/
def sameContent (a b : OfMsg) : Prop :=
  match a, b with
  | .flow f, .flow g => { f with mtch := ⟨f.mtch.items, 0⟩ } = { g with mtch := ⟨g.mtch.items, 0⟩ }
  | a, b => a = b

/-- `a` makes `m` unnecessary. -/
def Subsumes (a m : OfMsg) : Prop :=
  -- the same message
  sameContent a m ∨
  match a, m with
  | .flow f, .flow g =>
    -- an addition for the same flow
    (isFlowAdd (.flow f) ∧ f.slot = g.slot) ∨
    -- a deletion in all tables with a subset of the match
    (isDeletion (.flow f) ∧ isDeletion (.flow g) ∧ f.table = tableAll ∧ ∀ i ∈ f.mtch.items, i ∈ g.mtch.items)
  -- a deletion of all groups, all meters
  | .group f, .group g => f.cmd = .delete ∧ f.gid = none ∧ g.cmd = .delete
  | .meter f, .meter g => f.cmd = .delete ∧ f.mid = none ∧ g.cmd = .delete
  | _, _ => False

end Faucet.FlowReorder
