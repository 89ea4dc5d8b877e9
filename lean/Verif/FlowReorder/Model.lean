import Verif.Base.Dict
import Verif.Base.Sort
import Verif.OpenFlow.Msg

/-!
# Reordering and de-duplication of OpenFlow messages (`faucet/valve_of.py` 1074-1278)
-/

namespace Faucet.FlowReorder
open Faucet.OF

inductive Kind where
  | config | deleteglobal | delete | tfm | groupadd | meteradd | flowaddmod | other | packetout
deriving DecidableEq, Repr

/-- `is_global_flowdel`, `is_global_groupdel`, `is_global_meterdel` (1074-1090), `_MSG_KINDS_TYPES`,
`_MSG_KINDS` and `_msg_kind` (1094-1134). A barrier request is in neither table, so it is `other`. -/
def msgKind : OfMsg → Kind
  | .flow f =>
    match f.cmd with
    | .delete | .deleteStrict =>
      if f.table = tableAll ∧ f.mtch.items = [] then .deleteglobal else .delete
    | .add | .modifyStrict => .flowaddmod
  | .group ⟨.delete, none, _⟩ => .deleteglobal
  | .group ⟨.delete, some _, _⟩ => .delete
  | .group ⟨.add, _, _⟩ => .groupadd
  | .meter ⟨.delete, none, _⟩ => .deleteglobal
  | .meter ⟨.delete, some _, _⟩ => .delete
  | .meter ⟨.add, _, _⟩ => .meteradd
  | .config _ => .config
  | .tfm _ => .tfm
  | .packetOut _ => .packetout
  | .barrier => .other
  | .other _ => .other

/-- The Python type of a message, as far as `type(ofmsg) not in global_types` (1257-1262) can tell. -/
inductive MsgType where
  | flow | group | meter | rest
deriving DecidableEq, Repr

def msgType : OfMsg → MsgType
  | .flow _ => .flow
  | .group _ => .group
  | .meter _ => .meter
  | _ => .rest

/-- `_partition_ofmsgs` (1137-1142): the messages of a kind, in order. -/
def ofKind (ms : List OfMsg) (k : Kind) : List OfMsg := ms.filter (fun m => msgKind m = k)

/-- A dictionary key for a message: either its `str` (which shows everything but object identity; assumed
to tell different messages apart) or `_flowmodkey` (1145-1146). -/
inductive Key where
  | str (m : OfMsg)
  | flow (mtch : Match) (cookie priority table : Nat)
deriving DecidableEq, Repr

/-- `str(ofmsg)`: object identity of the match does not show. -/
def strKey : OfMsg → Key
  | .flow f => .str (.flow { f with mtch := ⟨f.mtch.items, 0⟩ })
  | m => .str m

/-- `_flowmodkey` and `_none_flowmodkey` (1145-1153): `none` for a message without those attributes. -/
def flowKey? : OfMsg → Option Key
  | .flow f => some (.flow f.mtch f.cookie f.priority f.table)
  | _ => none

/-- `_flowmodkey` (1145) used as dictionary key. It is only applied to flow mods (kind `flowaddmod`);
for other messages Python would raise, the model falls back to `str`. -/
def flowModKey (m : OfMsg) : Key := (flowKey? m).getD (strKey m)

/-- The sort key of `sort_flows` (1156-1165). -/
def sortKey : OfMsg → Nat × Nat
  | .flow f => (f.table, f.priority)
  | _ => (tableAll, 2 ^ 16 + 1)

/-- Descending order on the sort key. -/
def sortLe (a b : OfMsg) : Bool :=
  decide ((sortKey b).1 < (sortKey a).1 ∨
    ((sortKey b).1 = (sortKey a).1 ∧ (sortKey b).2 ≤ (sortKey a).2))

/-- `sort_flows` (1156-1165). Python's sort is stable, also with `reverse=True`, as is `isort`. -/
def sortFlows (ms : List OfMsg) : List OfMsg := isort sortLe ms

/-- The dictionary comprehension of `dedupe_ofmsgs` (1172): first position, last value. -/
def dedupeDict (key : OfMsg → Key) (ms : List OfMsg) : Dict Key OfMsg :=
  ms.foldl (fun d m => d.set (key m) m) []

/-- `dedupe_ofmsgs` (1168-1177). `shuffle` is `random.shuffle`. -/
def dedupe (shuffle : List OfMsg → List OfMsg) (random : Bool) (key : OfMsg → Key)
    (ms : List OfMsg) : List OfMsg :=
  let vals := (dedupeDict key ms).values
  if random then shuffle vals else sortFlows vals

/-- `getattr(ofmsg, "table_id", None)` (1184). -/
def tableId? : OfMsg → Option Nat
  | .flow f => some f.table
  | _ => none

/-- `ofmsg.match.items()`. -/
def matchItems : OfMsg → List MatchItem
  | .flow f => f.mtch.items
  | _ => []

/-- `overlap_matches` (1194-1198): matches of the deletes in all tables whose priority is 0. -/
def overlapMatches (ms : List OfMsg) : List (List MatchItem) :=
  ms.filterMap (fun m => match m with
    | .flow f => if f.table = tableAll ∧ f.priority = 0 then some f.mtch.items else none
    | _ => none)

/-- The filter of lines 1204-1208: not subsumed by any overlap match. -/
def noOverlap (overlaps : List (List MatchItem)) (m : OfMsg) : Bool :=
  !overlaps.any (fun o => o.all (fun i => (matchItems m).contains i))

/-- Table ids of the messages, each once. -/
def tableIds (ms : List OfMsg) : List Nat := (ms.filterMap tableId?).eraseDups

/-- `dedupe_overlaps_ofmsgs` (1180-1214). `none` is the `TypeError` from sorting table ids together with
the `None` under which group and meter messages are filed (1210). -/
def dedupeOverlaps (shuffle : List OfMsg → List OfMsg) (random : Bool) (key : OfMsg → Key)
    (ms : List OfMsg) : Option (List OfMsg) :=
  let deduped := dedupe shuffle random key ms
  let ids := tableIds deduped
  let overlaps := overlapMatches deduped
  let others := ids.filter (· ≠ tableAll)
  if tableAll ∈ ids ∧ overlaps ≠ [] ∧ others ≠ [] then
    if deduped.any (fun m => (tableId? m).isNone) then none
    else some ((isort (fun a b => decide (b ≤ a)) ids).flatMap (fun t =>
      deduped.filter (fun m => tableId? m == some t && (t == tableAll || noOverlap overlaps m))))
  else some deduped

/-- `remove_overlap_ofmsgs` (1217-1225). -/
def removeOverlap (ms addmod : List OfMsg) : List OfMsg :=
  let keys := addmod.filterMap flowKey?
  ms.filter (fun m => match flowKey? m with
    | some k => !keys.contains k
    | none => true)

/-- Lines 1253-1263: a global delete suppresses the other deletes of its type. -/
def suppressed (ms : List OfMsg) : List OfMsg :=
  let globals := ofKind ms .deleteglobal
  if globals = [] then ofKind ms .delete
  else (ofKind ms .delete).filter (fun m => !(globals.map msgType).contains (msgType m))

/-- `if ofmsgs: by_kind[kind] = ofmsgs` (1267-1268): an empty result does not replace the old list. -/
def keepIfEmpty (old new : List OfMsg) : List OfMsg := if new = [] then old else new

/-- Lines 1274-1277: messages of a kind and, if asked for, a barrier. -/
def emit (barriers : Bool) (ms : List OfMsg) : List OfMsg :=
  if ms = [] then [] else ms ++ (if barriers then [.barrier] else [])

/-- `valve_flowreorder` (1242-1278) with `_OFMSG_ORDER` (1229-1239) unrolled. -/
def reorder (shuffle : List OfMsg → List OfMsg) (useBarriers : Bool) (ms : List OfMsg) :
    Option (List OfMsg) := do
  let dd := fun (k : Kind) => keepIfEmpty (ofKind ms k) (dedupe shuffle false strKey (ofKind ms k))
  let deletes0 ← dedupeOverlaps shuffle false strKey (suppressed ms)
  let deletes := keepIfEmpty (suppressed ms) deletes0
  let addmod := keepIfEmpty (ofKind ms .flowaddmod) (dedupe shuffle false flowModKey (ofKind ms .flowaddmod))
  let packetout := keepIfEmpty (ofKind ms .packetout) (dedupe shuffle true strKey (ofKind ms .packetout))
  let deletes := if deletes ≠ [] ∧ addmod ≠ [] then removeOverlap deletes addmod else deletes
  some (emit useBarriers (dd .config)
    ++ emit useBarriers (dd .deleteglobal)
    ++ emit useBarriers deletes
    ++ emit useBarriers (dd .tfm)
    ++ emit useBarriers (dd .groupadd)
    ++ emit useBarriers (dd .meteradd)
    ++ emit false addmod
    ++ emit false (dd .other)
    ++ emit false packetout)

end Faucet.FlowReorder
