import Verif.OpenFlow.Table

/-!
# What a switch does with a packet

Not FAUCET code: the OpenFlow 1.3.5 packet processing of section 5 (matching 5.3, instructions 5.9, actions 5.12), which
the properties about packets need. Part of the trusted base. Ties between matching rules of the same priority are left
open: `Hit` is a relation, and theorems hold whichever rule the switch picks.
-/

namespace Faucet.OF

/-- A packet inside the pipeline. `hdr` gives the value of every match field other than the VLAN ones, if the packet has
it (`in_port` and `metadata` included); `tags` are the VLAN tags, outermost first, as (VID, PCP). -/
structure Pkt where
  hdr : Nat → Option Nat
  tags : List (Nat × Nat)

/-- Value of a match field. `vlan_vid` is 0 (`OFPVID_NONE`) for an untagged packet and has the present bit otherwise. -/
def Pkt.field (p : Pkt) (f : Nat) : Option Nat :=
  if f = fVlanVid then
    match p.tags with
    | [] => some 0
    | t :: _ => some (vidPresent t.1)
  else if f = fVlanPcp then p.tags.head?.map Prod.snd
  else p.hdr f

/-- Masked comparison. -/
def maskEq (mask : Option Nat) (v w : Nat) : Bool :=
  match mask with
  | none => v == w
  | some m => v &&& m == w &&& m

/-- A packet satisfies one item of a match. -/
def MatchItem.hits (i : MatchItem) (p : Pkt) : Bool :=
  match p.field i.field with
  | none => false
  | some v => maskEq i.mask v i.value

/-- A packet satisfies a match. -/
def hitsAll (items : List MatchItem) (p : Pkt) : Bool := items.all (fun i => i.hits p)

/-- The flow in slot `s` is one the switch may pick for the packet in table `t`: it matches and no matching flow of the
table has higher priority. -/
structure Hit (sw : Switch) (t : Nat) (p : Pkt) (s : Slot) (b : Body) : Prop where
  present : sw.flows s = some b
  table : s.table = t
  hits : hitsAll s.items p = true
  best : ∀ s' b', sw.flows s' = some b' → s'.table = t → hitsAll s'.items p = true → s'.priority ≤ s.priority

/-- No flow of the table matches: the packet is dropped. -/
def Miss (sw : Switch) (t : Nat) (p : Pkt) : Prop :=
  ∀ s b, sw.flows s = some b → s.table = t → hitsAll s.items p = false

/-- A copy of the packet leaving through a port (or to the controller, port `OFPP_CONTROLLER`). -/
structure Emit where
  port : Nat
  tags : List (Nat × Nat)
  hdr : Nat → Option Nat

/-- Effect of an action that does not output. A pushed tag copies the outer tag if there is one. -/
def Action.apply (a : Action) (p : Pkt) : Pkt :=
  match a with
  | .popVlan => { p with tags := p.tags.tail }
  | .pushVlan _ => { p with tags := p.tags.headD (0, 0) :: p.tags }
  | .setField f v =>
    if f = fVlanVid then
      { p with tags := match p.tags with | [] => [] | t :: r => (devidPresent v, t.2) :: r }
    else if f = fVlanPcp then
      { p with tags := match p.tags with | [] => [] | t :: r => (t.1, v) :: r }
    else { p with hdr := fun g => if g = f then some v else p.hdr g }
  | _ => p

/-- Output through a port: never back through the ingress port, unless `OFPP_IN_PORT` says so (OF 1.3.5, 5.12). -/
def emitPort (p : Pkt) (port : Nat) : List Emit :=
  if port = portInPort then
    match p.hdr fInPort with
    | some i => [⟨i, p.tags, p.hdr⟩]
    | none => []
  else if p.hdr fInPort = some port then []
  else [⟨port, p.tags, p.hdr⟩]

/-- A bucket of an ALL group: its actions on a copy of the packet. Groups do not chain here. -/
def runBucket : List Action → Pkt → List Emit
  | [], _ => []
  | .output n :: as, p => emitPort p n ++ runBucket as p
  | a :: as, p => runBucket as (a.apply p)

/-- Apply-actions: actions in order; copies emitted, packet as left for the next instruction. -/
def runActs (groups : Nat → Option (List (List Action))) : List Action → Pkt → List Emit × Pkt
  | [], p => ([], p)
  | .output n :: as, p => (emitPort p n ++ (runActs groups as p).1, (runActs groups as p).2)
  | .group g :: as, p =>
    ((((groups g).getD []).flatMap (fun b => runBucket b p)) ++ (runActs groups as p).1, (runActs groups as p).2)
  | a :: as, p => runActs groups as (a.apply p)

/-- The actions of the apply-actions instruction of a rule (a rule has at most one of each kind). -/
def instActs (inst : List Inst) : List Action :=
  inst.flatMap (fun i => match i with | .apply as => as | _ => [])

def instMeta (inst : List Inst) : List (Nat × Nat) :=
  inst.flatMap (fun i => match i with | .writeMetadata v m => [(v, m)] | _ => [])

def instGoto (inst : List Inst) : Option Nat :=
  (inst.filterMap (fun i => match i with | .goto t => some t | _ => none)).head?

/-- Write-metadata: replace the masked bits. -/
def newMeta (old : Nat) (vm : Nat × Nat) : Nat := (old &&& (vm.2 ^^^ 0xffffffffffffffff)) ||| (vm.1 &&& vm.2)

def writeMeta (p : Pkt) (vm : Nat × Nat) : Pkt :=
  { p with hdr := fun g => if g = fMetadata then some (newMeta ((p.hdr fMetadata).getD 0) vm) else p.hdr g }

/-- Instructions run in the order of OF 1.3.5, 5.9: apply-actions, then write-metadata, then goto. -/
def runInst (sw : Switch) (inst : List Inst) (p : Pkt) : List Emit × Pkt :=
  let r := runActs sw.groups (instActs inst) p
  (r.1, (instMeta inst).foldl writeMeta r.2)

/-- The copies a switch may emit for a packet entering a table. -/
inductive Proc (sw : Switch) : Nat → Pkt → List Emit → Prop
  | miss {t p} : Miss sw t p → Proc sw t p []
  | done {t p s b} : Hit sw t p s b → instGoto b.inst = none → Proc sw t p (runInst sw b.inst p).1
  | next {t p s b n es} : Hit sw t p s b → instGoto b.inst = some n → Proc sw n (runInst sw b.inst p).2 es →
      Proc sw t p ((runInst sw b.inst p).1 ++ es)

/-! ## Basic facts -/

theorem hits_plain {f v : Nat} {m : Option Nat} {p : Pkt} (h1 : f ≠ fVlanVid) (h2 : f ≠ fVlanPcp) :
    (⟨f, v, m⟩ : MatchItem).hits p = true ↔ ∃ x, p.hdr f = some x ∧ maskEq m x v = true := by
  have : p.field f = p.hdr f := by
    unfold Pkt.field
    rw [if_neg h1, if_neg h2]
  unfold MatchItem.hits
  simp only [this]
  cases p.hdr f <;> simp

theorem hits_exact {f v : Nat} {p : Pkt} (h1 : f ≠ fVlanVid) (h2 : f ≠ fVlanPcp) :
    (⟨f, v, none⟩ : MatchItem).hits p = true ↔ p.hdr f = some v := by
  rw [hits_plain h1 h2]
  simp [maskEq]

theorem hits_masked {f v m : Nat} {p : Pkt} (h1 : f ≠ fVlanVid) (h2 : f ≠ fVlanPcp) :
    (⟨f, v, some m⟩ : MatchItem).hits p = true ↔ ∃ x, p.hdr f = some x ∧ x &&& m = v &&& m := by
  rw [hits_plain h1 h2]
  simp [maskEq]

theorem runActs_append (g : Nat → Option (List (List Action))) (as bs : List Action) (p : Pkt) :
    runActs g (as ++ bs) p = ((runActs g as p).1 ++ (runActs g bs (runActs g as p).2).1, (runActs g bs (runActs g as p).2).2) := by
  induction as generalizing p with
  | nil => simp [runActs]
  | cons a as ih =>
    cases a <;> simp [runActs, ih]

theorem runActs_outputs (g : Nat → Option (List (List Action))) (ns : List Nat) (p : Pkt) :
    runActs g (ns.map Action.output) p = (ns.flatMap (emitPort p), p) := by
  induction ns with
  | nil => rfl
  | cons n ns ih => simp [runActs, ih]

end Faucet.OF
