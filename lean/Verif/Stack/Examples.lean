import Verif.Stack.Flood
import Verif.Stack.Path
import Verif.Stack.Topo
import Verif.Stack.Root

/-!
# Stack: concrete cases and defects

Every property theorem of this area is applied to concrete stacks, and the places where the code does
not do what one would expect are shown.
-/

namespace Faucet.Stack.Ex

open Faucet.Stack

/-- Both directions of a link. -/
def link (a p b q : Nat) : Cabling := [⟨a, p, b, q⟩, ⟨b, q, a, p⟩]

/-- Timers for the examples. -/
def cfg (x : Cable) : LCfg := ⟨x.peerDp, x.peerDp, x.peerNum, 5, 3⟩

/-- The LLDP packet the right neighbour sends. -/
def good (x : Cable) (t : Int) (rank : Nat → Nat) : TEvent :=
  ⟨x, .lldp t (beacon x.peerDp x.peerDp Option.none x.peerNum .init), rank⟩

/-- Every port hears its neighbour at time `t`. -/
def allHear (c : Cabling) (t : Int) : List TEvent := c.map (fun x => good x t id)

/-- Every port is checked at time `t`. -/
def allCheck (c : Cabling) (t : Int) : List TEvent := c.map (fun x => ⟨x, .check t, id⟩)

/-- A triangle with a doubled side: switch 1 and 2 are joined twice. -/
def tri : Cabling := link 1 1 2 1 ++ link 1 2 2 2 ++ link 2 3 3 1 ++ link 3 2 1 3

/-- A square: 1 - 3 - 2 - 4 - 1. -/
def square : Cabling := link 1 1 3 1 ++ link 1 2 4 1 ++ link 2 1 3 2 ++ link 2 2 4 2

/-- `Cabling.Ok` as a computation. -/
def okB (c : Cabling) : Bool :=
  c.all (fun x => c.contains ⟨x.peerDp, x.peerNum, x.dp, x.num⟩) &&
  c.all (fun x => c.all (fun y => !(x.dp == y.dp && x.num == y.num) || x == y)) &&
  c.all (fun x => x.peerDp != x.dp) && decide c.Nodup

theorem ok_of {c : Cabling} (h : okB c = true) : c.Ok := by
  simp only [okB, Bool.and_eq_true, List.all_eq_true, List.contains_iff_mem, Bool.or_eq_true,
    Bool.not_eq_true', Bool.and_eq_false_iff, beq_iff_eq, beq_eq_false_iff_ne, bne_iff_ne,
    decide_eq_true_eq] at h
  obtain ⟨⟨⟨h1, h2⟩, h3⟩, h4⟩ := h
  refine ⟨h1, ?_, h3, h4⟩
  intro x hx y hy e1 e2
  rcases h2 x hx y hy with (h | h) | h
  · exact absurd e1 h
  · exact absurd e2 h
  · exact h

theorem tri_ok : tri.Ok := ok_of (by decide +kernel)
theorem square_ok : square.Ok := ok_of (by decide +kernel)

/-- `Agreed` as a computation. -/
def agreedB (c : Cabling) (w : World) : Bool :=
  c.all (fun x => (decide ((w.ends x.dp x.num).state = .up) == decide ((w.ends x.peerDp x.peerNum).state = .up))
    && decide ((w.ends x.dp x.num).state ≠ .none))

theorem agreed_of {c : Cabling} {w : World} (h : agreedB c w = true) : Agreed c w := by
  simp only [agreedB, List.all_eq_true, Bool.and_eq_true, beq_iff_eq, decide_eq_decide,
    decide_eq_true_eq] at h
  exact h

/-- The world after a history that the controller survives. -/
def after (c : Cabling) (root : Nat) (es : List TEvent)
    (h : (worldRun c cfg root (.start c root) es).isSome = true) : World :=
  (worldRun c cfg root (.start c root) es).get h

theorem after_reached {c : Cabling} {root : Nat} {es : List TEvent}
    (h : (worldRun c cfg root (.start c root) es).isSome = true)
    (he : es.all (fun e => c.contains e.cable) = true) : Reached c cfg root (after c root es h) := by
  refine (Reached.start root).run es ?_ (Option.some_get h).symm
  intro e hm
  have := List.all_eq_true.1 he e hm
  simpa using this

/-! ## All links up -/

/-- The triangle with every link up. -/
def triUp : World := after tri 1 (allHear tri 1) (by decide +kernel)

theorem triUp_reached : Reached tri cfg 1 triUp := after_reached _ (by decide +kernel)

theorem triUp_agreed : Agreed tri triUp := agreed_of (by decide +kernel)

/-- The hypotheses of the theorems about settled stacks are met. -/
theorem triUp_settled : ∃ g, Settled (triUp.net tri 1) g 1 :=
  settled_of_history tri_ok ⟨⟨1, 1, 2, 1⟩, by decide +kernel, rfl⟩ triUp_reached triUp_agreed

/-- C26, C28 on it: switch 3 is connected to the root. -/
theorem triUp_connected {g : Graph} (st : Settled (triUp.net tri 1) g 1) : Connected (Adj g) 3 1 := by
  refine ⟨[3, 1], .step ((st.links 3 1).2 ?_) (.refl 1)⟩
  refine ⟨⟨2, 1, 3, true, true⟩, ?_, rfl, rfl⟩
  rw [World.net, mem_netPorts]
  exact ⟨⟨3, 2, 1, 3⟩, by decide +kernel, rfl, by decide +kernel⟩

example : ∃ g, ∃ _ : Settled (triUp.net tri 1) g 1, Connected (Adj g) 3 1 := by
  obtain ⟨g, st⟩ := triUp_settled
  exact ⟨g, st, triUp_connected st⟩

/-- Of the two parallel links, switch 2 uses the lower numbered one. -/
example : (chosenPort (triUp.net tri 1) 2).map (·.num) = some 1 := by decide +kernel

/-- How floods are done in the example. -/
def mode : Mode := ⟨true, fun _ => false, fun _ => true⟩

/-- C28: a broadcast from a host on switch 3 is delivered once everywhere and dies out. -/
example : ∃ g k, Settled (triUp.net tri 1) g 1 ∧ ∀ k', k ≤ k' →
    inFlight mode (triUp.net tri 1) k' [(3, .host true)] = [] := by
  obtain ⟨g, st⟩ := triUp_settled
  obtain ⟨k, hk⟩ := broadcast_once st mode 3 (triUp_connected st) true
  exact ⟨g, k, st, fun k' h => (hk k' h).1⟩

/-- One event earlier. -/
def triBefore : World := after tri 1 ((allHear tri 1).take 7) (by decide +kernel)

theorem triLast : worldStep tri cfg 1 triBefore (good ⟨1, 3, 3, 2⟩ 1 id) = some triUp := by
  have h1 : worldRun tri cfg 1 (.start tri 1) ((allHear tri 1).take 7 ++ [good ⟨1, 3, 3, 2⟩ 1 id])
      = some triUp := (Option.some_get (by decide +kernel)).symm
  rw [worldRun_append] at h1
  have h2 : worldRun tri cfg 1 (.start tri 1) ((allHear tri 1).take 7) = some triBefore :=
    (Option.some_get (by decide +kernel)).symm
  rw [h2] at h1
  simp only [Option.bind_some, worldRun] at h1
  split at h1
  · simp at h1
  · rename_i hw; rw [hw]; exact h1

/-- The last event of that history changes no graph, so every switch acts on the current state. -/
example : Current tri 1 triUp := by
  have hr : Reached tri cfg 1 triBefore := after_reached _ (by decide +kernel)
  refine quiet_change_refreshes triLast (by decide +kernel) ?_
  intro s
  rw [graphs_agree tri_ok triUp_reached s 0, graphs_agree tri_ok hr s 0]
  have : ∀ a b : Graph, a.nodes = b.nodes → a.edges = b.edges → a = b := by
    rintro ⟨_, _⟩ ⟨_, _⟩ rfl rfl; rfl
  exact this _ _ (by decide +kernel) (by decide +kernel)

/-! ## Link state -/

/-- A link that comes up, loses its neighbour and comes back. -/
example : ((linkRun (cfg ⟨1, 1, 2, 1⟩) .new
    [.check 0, .lldp 1 (beacon 2 2 Option.none 1 .init), .check 15]).map (·.state),
  (linkRun (cfg ⟨1, 1, 2, 1⟩) .new
    [.check 0, .lldp 1 (beacon 2 2 Option.none 1 .init), .check 16]).map (·.state)) =
  (some .up, some .gone) := by decide +kernel

/-- Mis-cabling. -/
example : (linkRun (cfg ⟨1, 1, 2, 1⟩) .new
    [.lldp 1 (beacon 2 2 Option.none 1 .init), .lldp 2 (beacon 2 2 Option.none 7 .init)]).map (·.state)
  = some .bad := by decide +kernel

/-- The controller does not survive checking an admin-down stack port: `stack_port_update` returns a
bare state where its caller unpacks a pair (port.py 740-741, valve_lldp.py 163). -/
theorem admin_down_check_defect (c : LCfg) (now : Int) (p : LPort) (h : p.state = .adminDown) :
    linkStep c p (.check now) = Option.none := by
  simp [linkStep, portUpdate, h]

/-- An LLDP packet on a stack port announcing a stack state without a name ends the controller: any
neighbour can send one (valve.py 1027-1041, `stack_state_name`). -/
theorem unknown_state_defect (c : LCfg) (now : Int) (p : LPort) (l : Lldp) (i : Int) (h : l.state = some i)
    (hi : i < -1 ∨ 4 < i) (hp : p.recv ≠ some i) : linkStep c p (.lldp now l) = Option.none := by
  have hk : knownState i = false := by
    simp only [knownState, decide_eq_false_iff_not]; omega
  have : logRaises l p = true := by
    unfold logRaises
    rw [h]
    simp [hk, hp]
    omega
  simp [linkStep, lldpRecv, this]

/-- A switch configured with an LLDP system name other than its own name is taken for the wrong switch
by its stack neighbours, so the link never comes up (valve.py 741-743, valve_lldp.py 112-116). -/
theorem system_name_defect (c : LCfg) (now : Int) (p q : LPort) (nm : Nat) (st : LState)
    (hn : nm ≠ c.peerName) (hd : c.peerDpId ≠ 0) (hp : c.peerPort ≠ 0)
    (h : linkStep c p (.lldp now (beacon c.peerDpId c.peerName (some nm) c.peerPort st)) = some q) :
    q.state ≠ .up := by
  simp only [linkStep, lldpRecv] at h
  split at h
  · simp at h
  · rw [if_pos (by simp [fromFaucet, beacon, hd, hp])] at h
    obtain ⟨_, _, k, _⟩ := portUpdate_some h rfl
    intro hu
    have := (k.1 hu).1
    simp [beacon, hn] at this

/-! ## Disagreement and stale views -/

/-- A chain 1 - 2 - 3 where switch 3 does not hear switch 2, though 2 hears 3. -/
def oneWay : Cabling := link 1 1 2 1 ++ link 2 2 3 1

def oneWayEvents : List TEvent :=
  allHear oneWay 1 ++ [good ⟨1, 1, 2, 1⟩ 20 id, good ⟨2, 1, 1, 1⟩ 20 id, good ⟨2, 2, 3, 1⟩ 20 id] ++
    allCheck oneWay 21

def oneWayWorld : World := after oneWay 1 oneWayEvents (by decide +kernel)

/-- A link that works in one direction only takes the switch on its good end off the network: switch 2's
link to the root is up at both ends, but switch 2 takes the cut off switch 3 (whose path to the root is
empty, of length 0) for closer to the root, and uses no port at all (valve_stack.py 71-85, 96-106). -/
theorem one_way_link_defect :
    (oneWayWorld.ends 1 1).state = .up ∧ (oneWayWorld.ends 2 1).state = .up ∧
    (oneWayWorld.ends 2 2).state = .up ∧ (oneWayWorld.ends 3 1).state = .gone ∧
    chosenPort (oneWayWorld.net oneWay 1) 2 = none ∧ away (oneWayWorld.net oneWay 1) 2 ≠ [] := by
  decide +kernel

/-- The square comes up; then switch 1 misses its neighbour's LLDP on port 1 for a while and hears it
again.  Switch 2 recalculates before switch 3 does. -/
def flapEvents : List TEvent :=
  allHear square 1 ++ (square.filter (fun x => x ≠ ⟨1, 1, 3, 1⟩)).map (fun x => good x 20 id) ++
    [⟨⟨1, 1, 3, 1⟩, .check 20, id⟩, good ⟨1, 1, 3, 1⟩ 21 id]

def flapWorld : World := after square 1 flapEvents (by decide +kernel)

/-- After a flap of one end of a link, every link is up at both ends and every graph is right, yet
switch 2 has worked out its ports from switch 3's topology graph before that was updated, and has no
port towards the root (valve_lldp.py 188-189: each switch in turn updates its graph and
recalculates). -/
theorem stale_view_defect :
    Agreed square flapWorld ∧ (∀ x ∈ square, (flapWorld.ends x.dp x.num).state = .up) ∧
    chosenPort (flapWorld.view 2) 2 = none ∧
    (chosenPort (flapWorld.net square 1) 2).map (·.num) = some 1 :=
  ⟨agreed_of (by decide +kernel), by decide +kernel, by decide +kernel, by decide +kernel⟩

/-- The square with the link between 1 and 3 gone at both ends. -/
def cutEvents : List TEvent :=
  allHear square 1 ++
    (square.filter (fun x => x ≠ ⟨1, 1, 3, 1⟩ ∧ x ≠ ⟨3, 1, 1, 1⟩)).map (fun x => good x 20 id) ++
    allCheck square 20

def cutWorld : World := after square 1 cutEvents (by decide +kernel)

/-- A reload of that stack, the switches being reconfigured in the order of their names. -/
def cutReloaded : World := reload square 1 id (fun _ => true) cutWorld

/-- A reload cuts a switch off: switch 3 reaches the others only through switch 2, but switch 2
recalculates while switch 3 still has its freshly configured topology, takes it for as close to the
root as switch 4, and prunes the port to it (valve.py 195-203, 249-252; valve_stack.py 47). -/
theorem reload_view_defect :
    Agreed square cutReloaded ∧ cutReloaded.graph 2 = cutReloaded.graph 3 ∧
    (cutReloaded.ends 2 1).state = .up ∧ (cutReloaded.ends 3 2).state = .up ∧
    (cutReloaded.ends 3 1).state = .gone ∧
    isPruned (cutReloaded.view 2) 2 ⟨1, 3, 2, true, true⟩ = true ∧
    isPruned (cutReloaded.net square 1) 2 ⟨1, 3, 2, true, true⟩ = false ∧
    (chosenPort (cutReloaded.net square 1) 3).map (·.num) = some 2 :=
  ⟨agreed_of (by decide +kernel), by
    have : ∀ a b : Graph, a.nodes = b.nodes → a.edges = b.edges → a = b := by
      rintro ⟨_, _⟩ ⟨_, _⟩ rfl rfl; rfl
    exact this _ _ (by decide +kernel) (by decide +kernel), by decide +kernel, by decide +kernel,
    by decide +kernel, by decide +kernel, by decide +kernel, by decide +kernel⟩

/-- The cut square before the reload meets the hypotheses of the reload theorem. -/
example : ∃ g, Settled (cutReloaded.net square 1) g 1 := by
  have hr : Reached square cfg 1 cutWorld := after_reached _ (by decide +kernel)
  exact settled_of_history square_ok ⟨⟨1, 1, 3, 1⟩, by decide +kernel, rfl⟩
    (hr.reload 1 id (fun _ => true) (agreed_of (c := square) (w := cutWorld) (by decide +kernel)))
    (agreed_of (c := square) (w := cutReloaded) (by decide +kernel))

/-! ## Pruning and unicast -/

/-- The link between two switches equally far from the root is pruned at neither end, although it is not
part of the tree: `is_pruned_port` alone does not describe a tree. -/
theorem unpruned_link_defect :
    isPruned (triUp.net tri 1) 2 ⟨3, 3, 1, true, true⟩ = false ∧
    isPruned (triUp.net tri 1) 3 ⟨1, 2, 3, true, true⟩ = false ∧
    ¬ (chosenPort (triUp.net tri 1) 2).map (·.num) = some 3 ∧
    ¬ (chosenPort (triUp.net tri 1) 3).map (·.num) = some 1 := by
  decide +kernel

/-- The triangle with the first of the parallel links gone (no LLDP) though physically up. -/
def parEvents : List TEvent :=
  allHear tri 1 ++
    (tri.filter (fun x => x ≠ ⟨1, 1, 2, 1⟩ ∧ x ≠ ⟨2, 1, 1, 1⟩)).map (fun x => good x 20 id) ++
    allCheck tri 20

def parWorld : World := after tri 1 parEvents (by decide +kernel)

/-- Unicast traffic is sent into a stack link that has been declared gone: `peer_up_ports` looks only at
whether the port is physically up (stack.py 442-451). -/
theorem gone_link_used_defect :
    (parWorld.ends 2 1).state = .gone ∧ (parWorld.ends 2 2).state = .up ∧
    (shortestPathPort (parWorld.net tri 1) 2 1).map (·.num) = some 1 ∧
    (chosenPort (parWorld.net tri 1) 2).map (·.num) = some 2 := by
  decide +kernel

/-! ## Root -/

/-- A root candidate with all its ports up. -/
def node (name prio lacp : Nat) : Node := ⟨name, name, some prio, 2, 2, lacp, lacp, 1, 1, 3, true⟩

/-- A root candidate with one of its two stack ports down. -/
def sick (name prio : Nat) : Node := ⟨name, name, some prio, 1, 2, 0, 0, 1, 1, 3, true⟩

example : (maintain .new 100 10 [node 2 2 0, node 1 1 0]).root = some 1 := by decide +kernel

example : (maintain ⟨some 2, fun _ => 90⟩ 100 10 [node 2 2 0, node 1 1 0]).root = some 2 := by
  decide +kernel

example : (maintain ⟨some 2, fun _ => 90⟩ 100 10 [sick 2 1, node 1 1 0]).root = some 1 := by
  decide +kernel

example : Distinct [node 2 2 0, node 1 1 0] := by
  constructor <;> decide +kernel

example : Healthy 100 10 (LastLive ⟨some 2, fun _ => 90⟩ 100 (node 1 1 0)) (node 1 1 0) := by
  rw [← healthy_iff]; decide +kernel

example : ¬ Healthy 100 10 (LastLive ⟨some 2, fun _ => 90⟩ 100 (sick 2 1)) (sick 2 1) := by
  rw [← healthy_iff]; decide +kernel

/-- A switch without LACP ports is ranked as if none of its LACP ports were up (stack.py 226-228, whose
comment says 100%), so a candidate with the best priority loses to any candidate with LACP ports. -/
theorem no_lacp_ranked_last_defect :
    (maintain .new 100 10 [node 1 1 0, node 2 50 1]).root = some 2 := by decide +kernel

end Faucet.Stack.Ex
