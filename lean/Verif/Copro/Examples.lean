import Verif.Copro.Props

/-!
# Coprocessor ports: a switch with one, and what goes wrong
-/

namespace Faucet.Copro.Ex
open Faucet.OF Faucet.FlowReorder

/-- A switch with ports 1 to 3; a coprocessor is attached to port 1. -/
def one : Cfg := ⟨1, 2, 3, 4, 4, 0, 9000, 9001, [1, 2, 3], [(1, 1000)]⟩

/-- Its base is changed. -/
def moved : Cfg := { one with copro := [(1, 2000)] }

/-- A port is added. -/
def grown : Cfg := { one with ports := [1, 2, 3, 4] }

/-- A second coprocessor, with a base that is one more. -/
def twice : Cfg := { one with copro := [(1, 1000), (2, 1001)] }

/-- A port with a large number. -/
def late : Cfg := { one with ports := [1, 2, 4098], copro := [(1, 1000)] }

/-- Two coprocessors, with bases far apart. -/
def pair : Cfg := { one with copro := [(1, 1000), (2, 1100)] }

/-- The port of the first becomes another kind of port. -/
def gone : Cfg := { one with copro := [(2, 1100)] }

def fresh (c : Cfg) : St := ⟨c, [], emptySwitch⟩

/-- A packet that came in by a port, with VLAN tags. -/
def pkt (j : Nat) (tags : List (Nat × Nat)) : Pkt := ⟨fun f => if f = fInPort then some j else none, tags⟩

/-- A rule of another part of FAUCET: packets that came in by port 2 go on to the next table. -/
def other : OfMsg := .flow ⟨.add, 1, 9000, ⟨[⟨fInPort, 2, none⟩], 0⟩, 0, [.goto 3], none, 0, 0⟩

theorem one_valid : Valid one := ⟨by decide, by decide, by decide, by decide, by decide⟩

theorem other_aside : Aside one [other] := by
  intro m hm t b ht
  simp only [List.mem_singleton] at hm
  subst hm
  have hne : (⟨1, 9000, [⟨fInPort, 2, none⟩]⟩ : Slot) ≠ t := by
    rintro rfl
    revert ht
    decide
  show (if (⟨1, 9000, [⟨fInPort, 2, none⟩]⟩ : Slot) = t then _ else b) = b
  rw [if_neg hne]

/-- The ports by which a packet leaves, and its tags then, if it got to the `vlan` table of a switch after a history. -/
def sends (c : Cfg) (h : List Ev) (slots : List Slot) (p : Pkt) : Option (List (Nat × List (Nat × Nat))) :=
  (evalProc slots (run (fresh c) h).sw 5 1 p).map outs

def hist : List Ev := [.connect one [2, 3] [other], .portUp 1 [], .portDown 1 [], .reload one [1] [other]]

/-- The hypotheses of the theorems for that history. -/
example : Aside one [other] ∧ (∀ e ∈ hist.tail, Steady one e) ∧ 1 ∈ (run (fresh one) hist).seen := by
  have hn : Aside one [] := fun m hm => by cases hm
  refine ⟨other_aside, ?_, by decide⟩
  intro e he
  simp only [hist, List.tail_cons, List.mem_cons, List.not_mem_nil, or_false] at he
  rcases he with rfl | rfl | rfl
  · exact hn
  · exact hn
  · exact ⟨rfl, other_aside⟩

/-- Where the switch has flows after that history. -/
def histSlots : List Slot :=
  [] ++ addSlots (.flow (missRule one) :: (among one [2, 3]).flatMap (addPort one) ++ [other]) ++
    addSlots ((among one [1]).flatMap (addPort one) ++ []) ++ addSlots [] ++
    addSlots ((among one [1, 2, 3]).flatMap (addPort one) ++ [other])

theorem hist_within : Within (run (fresh one) hist).sw histSlots :=
  within_exec (within_exec (within_exec (within_exec within_empty _) _) _) _

/-- The hypothesis that no other rule catches the packet, and that it is handled at all. -/
example : (∀ t b, (run (fresh one) hist).sw.flows t = some b → t.table = one.tv → hitsAll t.items (pkt 1 [(1003, 0)]) = true →
      t.priority < one.low ∨ (t.priority = one.low ∧ t.items = [⟨fInPort, 1, none⟩])) ∧
    ∃ es, Proc (run (fresh one) hist).sw one.tv (pkt 1 [(1003, 0)]) es ∧ outs es = [(3, [])] := by
  constructor
  · intro t b h
    have ht := hist_within t b h
    clear h
    revert t
    decide +kernel
  · exact evalProc_outs hist_within (n := 5) (by decide +kernel)

/-- The hypotheses of `changed_coprocessor_output`: the base is changed after that history. -/
example : Valid moved ∧ (moved.tc = one.tc ∧ moved.lowest = one.lowest ∧ moved.high = one.high) ∧ Aside moved [] ∧
    (1, 2000) ∈ moved.copro ∧ (1, 2000) ∉ one.copro ∧
    (∀ t b, (step (run (fresh one) hist) (.reload moved [] [])).sw.flows t = some b → t.table = moved.tv →
      hitsAll t.items (pkt 1 [(2003, 0)]) = true → t.priority < moved.low ∨ (t.priority = moved.low ∧ t.items = [⟨fInPort, 1, none⟩])) ∧
    ∃ es, Proc (step (run (fresh one) hist) (.reload moved [] [])).sw moved.tv (pkt 1 [(2003, 0)]) es ∧ outs es = [(3, [])] := by
  have hw : Within (step (run (fresh one) hist) (.reload moved [] [])).sw
      (histSlots ++ addSlots ((among moved [1, 2, 3]).flatMap (addPort moved) ++ [])) := within_exec hist_within _
  refine ⟨⟨by decide, by decide, by decide, by decide, by decide⟩, ⟨rfl, rfl, rfl⟩, (fun m hm => by cases hm), by decide, by decide, ?_, ?_⟩
  · intro t b h
    have ht := hw t b h
    clear h
    revert t
    decide +kernel
  · exact evalProc_outs hw (n := 5) (by decide +kernel)

def slotsOf (c : Cfg) : List Slot :=
  addSlots (other :: .flow (missRule c) :: c.copro.flatMap (addPort c))

/-- What happens there: VLAN id 1003 leads to port 3, 1001 to nothing. -/
example : sends one hist (slotsOf one) (pkt 1 [(1003, 0), (7, 0)]) = some [(3, [(7, 0)])] ∧
    sends one hist (slotsOf one) (pkt 1 [(1001, 0)]) = some [] := by decide +kernel

/-- The rule of the `copro` table for a VLAN id, after a history. -/
def outOf (c : Cfg) (h : List Ev) (vid : Nat) : Option (List Inst) :=
  ((run (fresh c) h).sw.flows ⟨2, 9001, [⟨fVlanVid, vidPresent vid, none⟩]⟩).map (·.inst)

/-- Two coprocessors may have bases that are close together, and the table that tells the output port does not look at where the packet
came from. With bases 1000 and 1001, VLAN id 1003 from the first, which stands for port 3, leads to port 2. -/
theorem overlapping_bases_defect :
    outOf twice [.connect twice [1, 2, 3] []] 1003 = some [.apply [.popVlan, .output 2]] := by decide +kernel

/-- VLAN ids beyond 4095 are not refused. With base 1000 and a port 4098 the id for that port is 5098. In a match this is the same as
1002, because of the bit that says that there is a tag, so packets for port 2 leave by port 4098. -/
theorem large_vid_defect :
    vidPresent (1000 + 4098) = vidPresent 1002 ∧
    outOf late [.connect late [1, 2] []] 1002 = some [.apply [.popVlan, .output 4098]] := by decide +kernel

/-- After a reload that changes the base of a coprocessor, its old VLAN ids go on leading to ports. -/
theorem moved_base_defect :
    outOf one [.connect one [1, 2, 3] [], .reload moved [] []] 2003 = some [.apply [.popVlan, .output 3]] ∧
    outOf one [.connect one [1, 2, 3] [], .reload moved [] []] 1003 = some [.apply [.popVlan, .output 3]] := by decide +kernel

/-- A port that a reload adds cannot be used by coprocessors that were there before: no rule is made for it, as there is one after a
restart. -/
theorem added_port_defect :
    outOf one [.connect one [1, 2, 3] [], .reload grown [] [], .portUp 4 []] 1004 = none ∧
    outOf one [.connect grown [1, 2, 3, 4] []] 1004 = some [.apply [.popVlan, .output 4]] := by decide +kernel

/-- When a reload makes the port of one of two coprocessors another kind of port, packets that come in there still choose their output
port by VLAN id. After a restart they do not. -/
theorem former_coprocessor_defect :
    sends pair [.connect pair [1, 2, 3] [], .reload gone [1] []] (slotsOf pair) (pkt 1 [(1003, 0)]) = some [(3, [])] ∧
    sends pair [.connect gone [1, 2, 3] []] (slotsOf pair) (pkt 1 [(1003, 0)]) = some [] := by decide +kernel

end Faucet.Copro.Ex
