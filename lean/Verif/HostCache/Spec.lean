import Verif.HostCache.Model

/-!
# Specification of the host table: a plain map

A host table is a partial map from MAC to (port, time last seen). This file does not use any of the
model's functions, only its `Port` and `Op` types.
-/

namespace Faucet.HostCache

/-- MAC to port and time last seen. -/
abbrev HostMap := Nat → Option (Port × Int)

/-- What each operation means on the map. -/
def specStep (s : HostMap) : Op → HostMap
  | .learn m p t => fun x => if x = m then some (p, t) else s x
  | .forget m => fun x => if x = m then none else s x
  | .clearPort p => fun x => (s x).filter (fun h => h.1.number ≠ p.number)
  | .sweep now timeout => fun x => (s x).filter (fun h => h.1.permanentLearn || decide (now - timeout ≤ h.2))
  | .coldStart => fun _ => none

/-- The map after a history that starts with no hosts. -/
def specRun (ops : List Op) : HostMap := ops.foldl specStep (fun _ => none)

/-- The time at which an operation takes place, if it has one. -/
def Op.time? : Op → Option Int
  | .learn _ _ t => some t
  | .sweep now _ => some now
  | _ => none

/-- The clock never runs backwards during the history. -/
def Monotone (ops : List Op) : Prop := (ops.filterMap Op.time?).Pairwise (· ≤ ·)

end Faucet.HostCache
