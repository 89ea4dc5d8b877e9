import Verif.Stack.Link
import Mathlib.Tactic.ByContra

/-!
# How link states become the topology the switches use

Model of `/repo/faucet/valve_lldp.py` 144-189 (`update_stack_link_state`),
`/repo/faucet/valve_stack.py` 142-155 (`update_stack_topo`), `/repo/faucet/stack.py` 97-113, 298-311
and `/repo/faucet/valve.py` 195-203, 1610-1653 (reload).

Every switch has its own topology graph.  What a switch derives from the topology (which ports lead
towards the root, which are pruned) is computed once and kept until the next recalculation
(`reset_peer_distances`); it reads the graphs and port states of the *other* switches as they are at
that moment.  `World.view s` is the state of all switches at the moment switch `s` last
recalculated, so `s` acts as `Peers` computes from `view s`.
-/

namespace Faucet.Stack

/-- A configured stack port and its peer. -/
structure Cable where
  dp : Nat
  num : Nat
  peerDp : Nat
  peerNum : Nat
deriving DecidableEq, Repr

/-- The stack ports of the configuration. -/
abbrev Cabling := List Cable

/-- The key of the link a stack port belongs to. -/
def Cable.edge (x : Cable) : Edge := canonEdge x.dp x.num x.peerDp x.peerNum

/-- Accepted cabling: every link is configured from both ends (`edge_count == 2`, stack.py 309-312),
port numbers are unique per switch, and no link joins a switch to itself (an assumption: the
configuration check allows that). -/
structure Cabling.Ok (c : Cabling) : Prop where
  sym : ∀ x ∈ c, (⟨x.peerDp, x.peerNum, x.dp, x.num⟩ : Cable) ∈ c
  uniq : ∀ x ∈ c, ∀ y ∈ c, x.dp = y.dp → x.num = y.num → x = y
  noSelf : ∀ x ∈ c, x.peerDp ≠ x.dp
  nodup : c.Nodup

/-- The graph built from the configuration, stack.py 298-311: every link is in it.
(`add_node` for each switch is implied: only switches with stack ports are added.) -/
def fullGraph (c : Cabling) : Graph :=
  c.foldl (fun g x => modifyLink g x.dp x.num x.peerDp x.peerNum true) ⟨[], []⟩

/-- All switches, seen from outside: the stack ports each has, its graph and the root. -/
def netOf (c : Cabling) (root : Nat) (ends : Nat → Nat → LPort) (graph : Nat → Graph) : Net where
  ports s := (c.filter (fun x => x.dp == s)).map
    (fun x => ⟨x.num, x.peerDp, x.peerNum, decide ((ends s x.num).state = .up), true⟩)
  graph := graph
  root := fun _ => root

/-- State of the stack. -/
structure World where
  ends : Nat → Nat → LPort
  graph : Nat → Graph
  view : Nat → Net

/-- The stack as it is now. -/
def World.net (c : Cabling) (root : Nat) (w : World) : Net := netOf c root w.ends w.graph

/-- Controller start. -/
def World.start (c : Cabling) (root : Nat) : World where
  ends := fun _ _ => .new
  graph := fun _ => fullGraph c
  view := fun _ => netOf c root (fun _ _ => .new) (fun _ => fullGraph c)

/-- Replace one port. -/
def setEnd (ends : Nat → Nat → LPort) (d p : Nat) (q : LPort) : Nat → Nat → LPort :=
  fun d' p' => if d' = d ∧ p' = p then q else ends d' p'

/-- Whether a port counts as up in the topology, valve_lldp.py 183-187: it is up, or it is still
initialising while its peer is up. -/
def portUp (ends : Nat → Nat → LPort) (x : Cable) : Bool :=
  decide ((ends x.dp x.num).state = .up) ||
    (decide ((ends x.dp x.num).state = .init) && decide ((ends x.peerDp x.peerNum).state = .up))

/-- Every switch's graph after a port changed state. -/
def regraph (ends : Nat → Nat → LPort) (graph : Nat → Graph) (x : Cable) : Nat → Graph :=
  fun s => modifyLink (graph s) x.dp x.num x.peerDp x.peerNum (portUp ends x)

/-- The recalculation, valve_lldp.py 188-189: the switches are visited one after the other in an
unspecified order (they are in a Python set), `rank` says which.  Switch `s` recalculates when the
graphs of the switches up to it have been updated and the others not yet. -/
def reviews (c : Cabling) (root : Nat) (ends : Nat → Nat → LPort) (rank : Nat → Nat)
    (old new : Nat → Graph) : Nat → Net :=
  fun s => netOf c root ends (fun t => if rank t ≤ rank s then new t else old t)

/-- Something happens on stack port `x`. -/
structure TEvent where
  cable : Cable
  ev : LEvent
  rank : Nat → Nat

/-- One event on one stack port, valve_lldp.py 161-189: nothing else happens unless the port's
state changes. -/
def worldStep (c : Cabling) (cfg : Cable → LCfg) (root : Nat) (w : World) (e : TEvent) : Option World :=
  match linkStep (cfg e.cable) (w.ends e.cable.dp e.cable.num) e.ev with
  | Option.none => Option.none
  | some q =>
    let ends := setEnd w.ends e.cable.dp e.cable.num q
    if q.state = (w.ends e.cable.dp e.cable.num).state then some ⟨ends, w.graph, w.view⟩
    else
      let graph := regraph ends w.graph e.cable
      some ⟨ends, graph, reviews c root ends e.rank w.graph graph⟩

/-- A history. -/
def worldRun (c : Cabling) (cfg : Cable → LCfg) (root : Nat) : World → List TEvent → Option World
  | w, [] => some w
  | w, e :: es =>
    match worldStep c cfg root w e with
    | Option.none => Option.none
    | some w' => worldRun c cfg root w' es

/-! ## Lemmas: edges -/

theorem canonEdge_swap {a p b q : Nat} (h : a ≠ b) : canonEdge a p b q = canonEdge b q a p := by
  unfold canonEdge
  by_cases h1 : a < b
  · rw [if_pos (.inl h1), if_neg (by omega)]
  · rw [if_neg (by omega), if_pos (by omega)]

theorem canonEdge_eq {a p b q a' p' b' q' : Nat}
    (h : canonEdge a p b q = canonEdge a' p' b' q') :
    (a = a' ∧ p = p' ∧ b = b' ∧ q = q') ∨ (a = b' ∧ p = q' ∧ b = a' ∧ q = p') := by
  unfold canonEdge at h
  split at h <;> split at h <;> simp only [Edge.mk.injEq] at h <;> omega

theorem edge_ends {c : Cabling} (_hc : c.Ok) {x y : Cable} (h : x.edge = y.edge) :
    x = y ∨ x = ⟨y.peerDp, y.peerNum, y.dp, y.num⟩ := by
  obtain ⟨a, p, b, q⟩ := x
  obtain ⟨a', p', b', q'⟩ := y
  rcases canonEdge_eq h with h | h
  · simp only at h; obtain ⟨rfl, rfl, rfl, rfl⟩ := h; exact .inl rfl
  · simp only at h; obtain ⟨rfl, rfl, rfl, rfl⟩ := h; exact .inr rfl

theorem mem_addNode {ns : List Nat} {v w : Nat} : w ∈ addNode ns v ↔ w = v ∨ w ∈ ns := by
  unfold addNode
  split
  · rename_i h; constructor
    · exact .inr
    · rintro (rfl | h')
      · exact h
      · exact h'
  · simp [or_comm]

theorem modifyLink_wf {g : Graph} (h : Wf g) (d p d' p' : Nat) (b : Bool) :
    Wf (modifyLink g d p d' p' b) := by
  unfold modifyLink
  cases b with
  | true =>
    intro e he
    simp only [if_true] at he ⊢
    have : e ∈ g.edges ∨ e = canonEdge d p d' p' := by
      split at he
      · exact .inl he
      · simpa [or_comm] using he
    simp only [mem_addNode]
    rcases this with h' | rfl
    · exact ⟨.inr (.inr (h e h').1), .inr (.inr (h e h').2)⟩
    · exact ⟨.inr (.inl rfl), .inl rfl⟩
  | false =>
    intro e he
    simp only [Bool.false_eq_true, if_false, List.mem_filter] at he ⊢
    exact h e he.1

theorem mem_modifyLink {g : Graph} {d p d' p' : Nat} {b : Bool} {e : Edge} :
    e ∈ (modifyLink g d p d' p' b).edges ↔
      if e = canonEdge d p d' p' then b = true else e ∈ g.edges := by
  unfold modifyLink
  cases b with
  | true =>
    simp only [if_true]
    by_cases h : e = canonEdge d p d' p'
    · rw [if_pos h]
      split
      · rename_i h'; simp [h, h']
      · simp [h]
    · rw [if_neg h]
      split
      · rfl
      · simp [h]
  | false =>
    simp only [Bool.false_eq_true, if_false, List.mem_filter, ne_eq, decide_eq_true_eq]
    by_cases h : e = canonEdge d p d' p'
    · simp [h]
    · simp [h]

theorem mem_modify {g : Graph} {x : Cable} {b : Bool} {e : Edge} :
    e ∈ (modifyLink g x.dp x.num x.peerDp x.peerNum b).edges ↔
      if e = x.edge then b = true else e ∈ g.edges := mem_modifyLink

theorem nodes_modifyLink {g : Graph} {d p d' p' : Nat} {b : Bool} {v : Nat} (h : v ∈ g.nodes) :
    v ∈ (modifyLink g d p d' p' b).nodes := by
  unfold modifyLink
  cases b with
  | true => simp only [if_true, mem_addNode]; exact .inr (.inr h)
  | false => simpa using h

/-- The configured graph. -/
theorem foldl_full (c : Cabling) (g : Graph) (hg : Wf g) :
    let g' := c.foldl (fun g x => modifyLink g x.dp x.num x.peerDp x.peerNum true) g
    Wf g' ∧ (∀ v ∈ g.nodes, v ∈ g'.nodes) ∧
      (∀ e, e ∈ g'.edges ↔ e ∈ g.edges ∨ ∃ x ∈ c, e = x.edge) ∧
      (∀ x ∈ c, x.dp ∈ g'.nodes) := by
  induction c generalizing g with
  | nil => simp [hg]
  | cons a c ih =>
    simp only [List.foldl_cons]
    obtain ⟨h1, h2, h3, h4⟩ := ih _ (modifyLink_wf hg a.dp a.num a.peerDp a.peerNum true)
    refine ⟨h1, fun v hv => h2 v (nodes_modifyLink hv), ?_, ?_⟩
    · intro e
      rw [h3, mem_modify]
      simp only [List.mem_cons, exists_eq_or_imp]
      by_cases he : e = a.edge
      · rw [if_pos he]; simp [he]
      · rw [if_neg he]; simp [he]
    · intro x hx
      rcases List.mem_cons.1 hx with rfl | hx
      · apply h2
        have hm : x.edge ∈ (modifyLink g x.dp x.num x.peerDp x.peerNum true).edges := by
          rw [mem_modify, if_pos rfl]
        have := modifyLink_wf hg x.dp x.num x.peerDp x.peerNum true _ hm
        unfold Cable.edge canonEdge at this
        split at this
        · exact this.1
        · exact this.2
      · exact h4 x hx

theorem modifyLink_nodup {g : Graph} (h : g.edges.Nodup) (d p d' p' : Nat) (b : Bool) :
    (modifyLink g d p d' p' b).edges.Nodup := by
  unfold modifyLink
  cases b with
  | true =>
    simp only [if_true]
    split
    · exact h
    · rename_i hn
      rw [List.nodup_append]
      refine ⟨h, by simp, ?_⟩
      intro a ha b hb
      simp only [List.mem_singleton] at hb
      rintro rfl
      exact hn (hb ▸ ha)
  | false => simpa using h.filter _

theorem foldl_nodup (f : Cable → Bool) (l : Cabling) (g : Graph) (h : g.edges.Nodup) :
    (l.foldl (fun g x => modifyLink g x.dp x.num x.peerDp x.peerNum (f x)) g).edges.Nodup := by
  induction l generalizing g with
  | nil => exact h
  | cons a l ih => exact ih _ (modifyLink_nodup h _ _ _ _ _)

theorem fullGraph_wf (c : Cabling) : Wf (fullGraph c) :=
  (foldl_full c ⟨[], []⟩ (by intro e he; simp at he)).1

theorem mem_fullGraph {c : Cabling} {e : Edge} : e ∈ (fullGraph c).edges ↔ ∃ x ∈ c, e = x.edge := by
  unfold fullGraph
  have := (foldl_full c ⟨[], []⟩ (by intro e he; simp at he)).2.2.1 e
  simpa using this

theorem node_fullGraph {c : Cabling} {x : Cable} (h : x ∈ c) : x.dp ∈ (fullGraph c).nodes :=
  (foldl_full c ⟨[], []⟩ (by intro e he; simp at he)).2.2.2 x h

/-! ## The invariant -/

/-- A stack port is up. -/
def IsUp (w : World) (d p : Nat) : Prop := (w.ends d p).state = .up

/-- What holds after every history. -/
structure WInv (c : Cabling) (w : World) (g : Graph) : Prop where
  graph : ∀ s, w.graph s = g
  wf : Wf g
  nodes : ∀ v ∈ (fullGraph c).nodes, v ∈ g.nodes
  known : ∀ e ∈ g.edges, ∃ x ∈ c, e = x.edge
  nodup : g.edges.Nodup
  both : ∀ x ∈ c, IsUp w x.dp x.num → IsUp w x.peerDp x.peerNum → x.edge ∈ g.edges
  neither : ∀ x ∈ c, ¬ IsUp w x.dp x.num → ¬ IsUp w x.peerDp x.peerNum →
    ((w.ends x.dp x.num).state ≠ .none ∨ (w.ends x.peerDp x.peerNum).state ≠ .none) → x.edge ∉ g.edges

theorem winv_start (c : Cabling) (root : Nat) : WInv c (World.start c root) (fullGraph c) where
  graph := fun _ => rfl
  wf := fullGraph_wf c
  nodes := fun _ h => h
  known := fun e h => mem_fullGraph.1 h
  nodup := foldl_nodup _ c ⟨[], []⟩ List.nodup_nil
  both := fun x hx _ _ => mem_fullGraph.2 ⟨x, hx, rfl⟩
  neither := by
    intro x _ _ _ h
    simp [World.start, LPort.new] at h

theorem setEnd_self (ends : Nat → Nat → LPort) (d p : Nat) (q : LPort) : setEnd ends d p q d p = q := by
  simp [setEnd]

theorem setEnd_other {ends : Nat → Nat → LPort} {d p d' p' : Nat} {q : LPort}
    (h : ¬ (d' = d ∧ p' = p)) : setEnd ends d p q d' p' = ends d' p' := by
  simp [setEnd, h]

/-- Topology after a state change, as one function of the common graph. -/
theorem winv_change {c : Cabling} (hc : c.Ok) {w : World} {g : Graph} (hi : WInv c w g)
    {x : Cable} (hx : x ∈ c) (q : LPort)
    (v : Nat → Net) :
    WInv c ⟨setEnd w.ends x.dp x.num q, regraph (setEnd w.ends x.dp x.num q) w.graph x, v⟩
      (modifyLink g x.dp x.num x.peerDp x.peerNum (portUp (setEnd w.ends x.dp x.num q) x)) := by
  have hpeer : ¬ (x.peerDp = x.dp ∧ x.peerNum = x.num) := fun h => hc.noSelf x hx h.1
  -- the two ends of link `y`, when it is the link of `x`
  have hup : portUp (setEnd w.ends x.dp x.num q) x = true ↔
      q.state = .up ∨ (q.state = .init ∧ IsUp w x.peerDp x.peerNum) := by
    simp [portUp, setEnd_self, setEnd_other hpeer, IsUp]
  have hsame : ∀ y ∈ c, y.edge ≠ x.edge →
      setEnd w.ends x.dp x.num q y.dp y.num = w.ends y.dp y.num ∧
      setEnd w.ends x.dp x.num q y.peerDp y.peerNum = w.ends y.peerDp y.peerNum := by
    intro y hy hne
    constructor
    · apply setEnd_other
      rintro ⟨h1, h2⟩
      exact hne (by rw [hc.uniq y hy x hx h1 h2])
    · apply setEnd_other
      rintro ⟨h1, h2⟩
      have := hc.uniq _ (hc.sym y hy) x hx h1 h2
      apply hne
      rw [← this]
      exact canonEdge_swap (fun h => hc.noSelf y hy h.symm)
  refine ⟨?_, modifyLink_wf hi.wf _ _ _ _ _, fun v hv => nodes_modifyLink (hi.nodes v hv), ?_, ?_, ?_, ?_⟩
  · intro s; simp only [regraph, hi.graph s]
  · intro e he
    rw [mem_modify] at he
    split at he
    · rename_i h; exact ⟨x, hx, h⟩
    · exact hi.known e he
  · exact modifyLink_nodup hi.nodup _ _ _ _ _
  · intro y hy h1 h2
    rw [mem_modify]
    by_cases hye : y.edge = x.edge
    · rw [if_pos hye, hup]
      rcases edge_ends hc hye with rfl | rfl
      · simp only [IsUp, setEnd_self] at h1
        exact .inl h1
      · simp only [IsUp, setEnd_self] at h2
        exact .inl h2
    · rw [if_neg hye]
      obtain ⟨e1, e2⟩ := hsame y hy hye
      simp only [IsUp, e1, e2] at h1 h2
      exact hi.both y hy h1 h2
  · intro y hy h1 h2 h3 hmem
    rw [mem_modify] at hmem
    by_cases hye : y.edge = x.edge
    · rw [if_pos hye, hup] at hmem
      rcases edge_ends hc hye with rfl | rfl
      · simp only [IsUp, setEnd_self, setEnd_other hpeer] at h1 h2
        rcases hmem with h | ⟨_, h⟩
        · exact h1 h
        · exact h2 h
      · simp only [IsUp, setEnd_self, setEnd_other hpeer] at h1 h2
        rcases hmem with h | ⟨_, h⟩
        · exact h2 h
        · exact h1 h
    · rw [if_neg hye] at hmem
      obtain ⟨e1, e2⟩ := hsame y hy hye
      simp only [IsUp, e1, e2] at h1 h2 h3
      exact hi.neither y hy h1 h2 h3 hmem

/-- An event that leaves the port's state as it is. -/
theorem winv_same {c : Cabling} {w : World} {g : Graph} (hi : WInv c w g)
    {d p : Nat} (q : LPort) (hq : q.state = (w.ends d p).state) (v : Nat → Net) :
    WInv c ⟨setEnd w.ends d p q, w.graph, v⟩ g := by
  have hs : ∀ d' p', (setEnd w.ends d p q d' p').state = (w.ends d' p').state := by
    intro d' p'
    by_cases h : d' = d ∧ p' = p
    · obtain ⟨rfl, rfl⟩ := h; rw [setEnd_self, hq]
    · rw [setEnd_other h]
  refine ⟨hi.graph, hi.wf, hi.nodes, hi.known, hi.nodup, ?_, ?_⟩
  · intro y hy h1 h2
    simp only [IsUp, hs] at h1 h2
    exact hi.both y hy h1 h2
  · intro y hy h1 h2 h3
    simp only [IsUp, hs] at h1 h2 h3
    exact hi.neither y hy h1 h2 h3

theorem winv_step {c : Cabling} (hc : c.Ok) {cfg : Cable → LCfg} {root : Nat} {w w' : World}
    {g : Graph} (hi : WInv c w g) {e : TEvent} (hx : e.cable ∈ c)
    (h : worldStep c cfg root w e = some w') : ∃ g', WInv c w' g' := by
  unfold worldStep at h
  split at h
  · simp at h
  · rename_i q hq
    dsimp only at h
    split at h
    · rename_i hs
      simp only [Option.some.injEq] at h
      subst h
      exact ⟨g, winv_same hi q hs _⟩
    · rename_i hs
      simp only [Option.some.injEq] at h
      subst h
      exact ⟨_, winv_change hc hi hx q _⟩

theorem winv_run {c : Cabling} (hc : c.Ok) {cfg : Cable → LCfg} {root : Nat} (es : List TEvent)
    (he : ∀ e ∈ es, e.cable ∈ c) {w w' : World} {g : Graph} (hi : WInv c w g)
    (h : worldRun c cfg root w es = some w') : ∃ g', WInv c w' g' := by
  induction es generalizing w g with
  | nil => simp only [worldRun, Option.some.injEq] at h; subst h; exact ⟨g, hi⟩
  | cons e es ih =>
    unfold worldRun at h
    split at h
    · simp at h
    · rename_i w1 h1
      obtain ⟨g1, hi1⟩ := winv_step hc hi (he e (by simp)) h1
      exact ih (fun e' h' => he e' (by simp [h'])) hi1 h

/-! ## Agreement -/

/-- Both ends of every link have been looked at and say the same. -/
def Agreed (c : Cabling) (w : World) : Prop :=
  ∀ x ∈ c, (IsUp w x.dp x.num ↔ IsUp w x.peerDp x.peerNum) ∧ (w.ends x.dp x.num).state ≠ .none

theorem mem_netPorts {c : Cabling} {root : Nat} {ends : Nat → Nat → LPort} {graph : Nat → Graph}
    {s : Nat} {p : SPort} : p ∈ (netOf c root ends graph).ports s ↔
      ∃ x ∈ c, x.dp = s ∧ p = ⟨x.num, x.peerDp, x.peerNum, decide ((ends s x.num).state = .up), true⟩ := by
  simp only [netOf, List.mem_map, List.mem_filter, beq_iff_eq]
  constructor
  · rintro ⟨x, ⟨h1, h2⟩, h3⟩; exact ⟨x, h1, h2, h3.symm⟩
  · rintro ⟨x, h1, h2, h3⟩; exact ⟨x, ⟨h1, h2⟩, h3.symm⟩

theorem adj_iff {g : Graph} {u v : Nat} : Adj g u v ↔
    ∃ e ∈ g.edges, (e.aDp = u ∧ e.zDp = v) ∨ (e.aDp = v ∧ e.zDp = u) := by
  simp [Adj, adj]

theorem settled_of_inv {c : Cabling} (hc : c.Ok) {w : World} {g : Graph} (hi : WInv c w g)
    (ha : Agreed c w) {root : Nat} (hr : ∃ x ∈ c, x.dp = root) : Settled (w.net c root) g root where
  wf := hi.wf
  graph := hi.graph
  root := fun _ => rfl
  rootIn := by
    obtain ⟨x, hx, rfl⟩ := hr
    exact hi.nodes _ (node_fullGraph hx)
  nums := by
    intro s
    simp only [World.net, netOf, List.map_map]
    rw [List.nodup_map_iff_inj_on]
    · intro x hx y hy h
      simp only [List.mem_filter, beq_iff_eq] at hx hy
      exact hc.uniq x hx.1 y hy.1 (by rw [hx.2, hy.2]) h
    · exact hc.nodup.filter _
  cabled := by
    intro s p hp
    obtain ⟨x, hx, rfl, rfl⟩ := mem_netPorts.1 hp
    refine ⟨_, mem_netPorts.2 ⟨_, hc.sym x hx, rfl, rfl⟩, rfl, rfl, rfl, ?_⟩
    simp only [decide_eq_decide]
    exact (ha x hx).1.symm
  noSelf := by
    intro s p hp
    obtain ⟨x, hx, rfl, rfl⟩ := mem_netPorts.1 hp
    exact hc.noSelf x hx
  links := by
    intro u v
    rw [adj_iff]
    constructor
    · rintro ⟨e, he, hor⟩
      obtain ⟨x, hx, rfl⟩ := hi.known e he
      have hup : IsUp w x.dp x.num := by
        by_contra hn
        have hn' : ¬ IsUp w x.peerDp x.peerNum := fun h => hn ((ha x hx).1.2 h)
        exact hi.neither x hx hn hn' (.inl (ha x hx).2) he
      have hup' : IsUp w x.peerDp x.peerNum := (ha x hx).1.1 hup
      have hends : (x.dp = u ∧ x.peerDp = v) ∨ (x.dp = v ∧ x.peerDp = u) := by
        unfold Cable.edge canonEdge at hor
        split at hor
        · exact hor
        · simp only at hor
          rcases hor with ⟨h1, h2⟩ | ⟨h1, h2⟩
          · exact .inr ⟨h2, h1⟩
          · exact .inl ⟨h2, h1⟩
      rcases hends with ⟨rfl, rfl⟩ | ⟨rfl, rfl⟩
      · exact ⟨_, mem_netPorts.2 ⟨x, hx, rfl, rfl⟩, decide_eq_true hup, rfl⟩
      · exact ⟨_, mem_netPorts.2 ⟨_, hc.sym x hx, rfl, rfl⟩, decide_eq_true hup', rfl⟩
    · rintro ⟨p, hp, hup, rfl⟩
      obtain ⟨x, hx, rfl, rfl⟩ := mem_netPorts.1 hp
      have hup1 : IsUp w x.dp x.num := by simpa [IsUp] using hup
      have hup2 := (ha x hx).1.1 hup1
      refine ⟨x.edge, hi.both x hx hup1 hup2, ?_⟩
      unfold Cable.edge canonEdge
      split
      · exact .inl ⟨rfl, rfl⟩
      · exact .inr ⟨rfl, rfl⟩

/-! ## Views -/

theorem worldRun_append (c : Cabling) (cfg : Cable → LCfg) (root : Nat) (w : World)
    (a b : List TEvent) : worldRun c cfg root w (a ++ b) =
      (worldRun c cfg root w a).bind (fun v => worldRun c cfg root v b) := by
  induction a generalizing w with
  | nil => rfl
  | cons e es ih =>
    simp only [List.cons_append, worldRun]
    split
    · rfl
    · exact ih _

/-- Views depend on the ports only through whether they are up. -/
theorem netOf_congr {c : Cabling} {root : Nat} {ends ends' : Nat → Nat → LPort}
    {graph graph' : Nat → Graph} (h : ∀ d p, (ends d p).state = (ends' d p).state)
    (hg : ∀ s, graph s = graph' s) : netOf c root ends graph = netOf c root ends' graph' := by
  have : graph = graph' := funext hg
  subst this
  simp [netOf, h]

/-- What every switch acts on is the stack as it is now. -/
def Current (c : Cabling) (root : Nat) (w : World) : Prop := ∀ s, w.view s = w.net c root

/-- C26, C28: a change of a port's state that leaves the topology as it was (as when the second end
of a link follows the first) makes every switch act on the current state of the stack, whatever the
order in which the switches recalculate. -/
theorem quiet_change_refreshes {c : Cabling} {cfg : Cable → LCfg} {root : Nat} {w w' : World}
    {e : TEvent} (h : worldStep c cfg root w e = some w')
    (hch : (w'.ends e.cable.dp e.cable.num).state ≠ (w.ends e.cable.dp e.cable.num).state)
    (hq : ∀ s, w'.graph s = w.graph s) : Current c root w' := by
  unfold worldStep at h
  split at h
  · simp at h
  · dsimp only at h
    split at h
    · rename_i hs
      simp only [Option.some.injEq] at h
      subst h
      simp only [setEnd_self] at hch
      exact absurd hs hch
    · simp only [Option.some.injEq] at h
      subst h
      intro s
      simp only at hq
      refine netOf_congr (fun _ _ => rfl) ?_
      intro t
      split
      · rfl
      · exact (hq t).symm

/-- Events that change no port's state keep every switch current. -/
theorem no_change_keeps {c : Cabling} {cfg : Cable → LCfg} {root : Nat} {w w' : World}
    {e : TEvent} (h : worldStep c cfg root w e = some w')
    (hs : (w'.ends e.cable.dp e.cable.num).state = (w.ends e.cable.dp e.cable.num).state)
    (hc : Current c root w) : Current c root w' := by
  unfold worldStep at h
  split at h
  · simp at h
  · rename_i q hq
    dsimp only at h
    split at h
    · rename_i hs'
      simp only [Option.some.injEq] at h
      subst h
      intro s
      rw [hc s]
      refine netOf_congr ?_ (fun _ => rfl)
      intro d p
      dsimp only
      by_cases hdp : d = e.cable.dp ∧ p = e.cable.num
      · obtain ⟨rfl, rfl⟩ := hdp; rw [setEnd_self, hs']
      · rw [setEnd_other hdp]
    · rename_i hs'
      simp only [Option.some.injEq] at h
      subst h
      simp only [setEnd_self] at hs
      exact absurd hs hs'

/-- A switch that recalculates last is always current. -/
theorem last_is_current {c : Cabling} {cfg : Cable → LCfg} {root : Nat} {w w' : World}
    {e : TEvent} (h : worldStep c cfg root w e = some w')
    (hch : (w'.ends e.cable.dp e.cable.num).state ≠ (w.ends e.cable.dp e.cable.num).state)
    (s : Nat) (hlast : ∀ t, e.rank t ≤ e.rank s) : w'.view s = w'.net c root := by
  unfold worldStep at h
  split at h
  · simp at h
  · dsimp only at h
    split at h
    · rename_i hs
      simp only [Option.some.injEq] at h
      subst h
      simp only [setEnd_self] at hch
      exact absurd hs hch
    · simp only [Option.some.injEq] at h
      subst h
      refine netOf_congr (fun _ _ => rfl) ?_
      intro t
      rw [if_pos (hlast t)]

/-! ## Reload -/

/-- Ports as switch `s` finds them while the switches are being reconfigured in the order `rank`:
those of switches up to `s` have taken over their state (port.py 298-306), the others are new. -/
def endsDuring (rank : Nat → Nat) (ends : Nat → Nat → LPort) (s : Nat) : Nat → Nat → LPort :=
  fun d p => if rank d ≤ rank s then ends d p else .new

/-- `port_up` in `Stack.clone_dyn_state`, stack.py 106-112, for port `x` while switch `s` is being
reconfigured: switches already reconfigured are seen through the new configuration, where the peer
may not have taken over its state yet; the others through the old one. -/
def clonedUp (rank : Nat → Nat) (ends : Nat → Nat → LPort) (s : Nat) (x : Cable) : Bool :=
  if rank x.dp < rank s then portUp (endsDuring rank ends s) x else portUp ends x

/-- `graph.degree()` at one switch. -/
def degree (g : Graph) (v : Nat) : Nat :=
  g.edges.countP (fun e => e.aDp == v) + g.edges.countP (fun e => e.zDp == v)

/-- `topology_changed`, dp.py 1578-1579 and stack.py 372-374: whether the degrees differ between the
current graph and that of the new configuration.  (The code compares hashes of the sorted list of
switches and degrees; hashes of different lists are taken to differ.) -/
def topoChanged (g h : Graph) : Bool :=
  !((g.nodes ++ h.nodes).all (fun v => degree g v == degree h v))

/-- The graph of a reconfigured switch, stack.py 97-113, 298-311: all links, and, if the switch's
configuration changed (`valves` is passed, valve.py 1613, 1618, 1653, but not 1629), then each stack
port of each switch in turn adds or removes its link.  A difference between the current and the
configured topology counts as a change (dp.py 1578-1588).  The order of the ports is that of the
cabling. -/
def clonedGraph (c : Cabling) (rank : Nat → Nat) (ends : Nat → Nat → LPort) (changed : Bool)
    (old : Graph) (s : Nat) : Graph :=
  if changed || topoChanged old (fullGraph c) then
    c.foldl (fun g x => modifyLink g x.dp x.num x.peerDp x.peerNum (clonedUp rank ends s x)) (fullGraph c)
  else fullGraph c

/-- A reload that leaves the stacking configuration alone except possibly for the root, as
`reload_stack_root_config` does (valves_manager.py 124-131, 276-296).  `changed` says for which
switches something else changed. -/
def reload (c : Cabling) (root : Nat) (rank : Nat → Nat) (changed : Nat → Bool) (w : World) : World where
  ends := w.ends
  graph := fun s => clonedGraph c rank w.ends (changed s) (w.graph s) s
  view := fun s => netOf c root (endsDuring rank w.ends s)
    (fun t => if rank t ≤ rank s then clonedGraph c rank w.ends (changed t) (w.graph t) t
      else fullGraph c)

theorem same_degree {c : Cabling} {w : World} {g : Graph} (hi : WInv c w g)
    (h : topoChanged g (fullGraph c) = false) : ∀ x ∈ c, x.edge ∈ g.edges := by
  intro x hx
  by_contra hn
  have hdeg : degree g x.edge.aDp = degree (fullGraph c) x.edge.aDp := by
    simp only [topoChanged, Bool.not_eq_false', List.all_eq_true, List.mem_append, beq_iff_eq] at h
    exact h _ (.inr (fullGraph_wf c _ (mem_fullGraph.2 ⟨x, hx, rfl⟩)).1)
  have hsub : List.Subperm (x.edge :: g.edges) (fullGraph c).edges := by
    apply List.subperm_of_subset
    · exact List.nodup_cons.2 ⟨hn, hi.nodup⟩
    · intro e he
      rcases List.mem_cons.1 he with rfl | he
      · exact mem_fullGraph.2 ⟨x, hx, rfl⟩
      · exact mem_fullGraph.2 (hi.known e he)
  have h1 := hsub.countP_le (fun e => e.aDp == x.edge.aDp)
  have h2 := hsub.countP_le (fun e => e.zDp == x.edge.aDp)
  simp only [List.countP_cons, beq_self_eq_true, if_true] at h1
  have h3 : g.edges.countP (fun e => e.zDp == x.edge.aDp) ≤
      (x.edge :: g.edges).countP (fun e => e.zDp == x.edge.aDp) := by
    rw [List.countP_cons]; omega
  unfold degree at hdeg
  omega

theorem foldl_cloned (f : Cable → Bool) (l : Cabling) (g : Graph) (hg : Wf g) :
    let g' := l.foldl (fun g x => modifyLink g x.dp x.num x.peerDp x.peerNum (f x)) g
    Wf g' ∧ (∀ v ∈ g.nodes, v ∈ g'.nodes) ∧
      (∀ e, (∀ x ∈ l, e ≠ x.edge) → (e ∈ g'.edges ↔ e ∈ g.edges)) ∧
      (∀ e b, (∃ x ∈ l, e = x.edge) → (∀ x ∈ l, e = x.edge → f x = b) → (e ∈ g'.edges ↔ b = true)) := by
  induction l generalizing g with
  | nil => simp [hg]
  | cons a l ih =>
    simp only [List.foldl_cons]
    obtain ⟨h1, h2, h3, h4⟩ := ih _ (modifyLink_wf hg a.dp a.num a.peerDp a.peerNum (f a))
    refine ⟨h1, fun v hv => h2 v (nodes_modifyLink hv), ?_, ?_⟩
    · intro e he
      rw [h3 e (fun x hx => he x (by simp [hx])), mem_modify, if_neg]
      exact he a (by simp)
    · intro e b hex hall
      by_cases hl : ∃ x ∈ l, e = x.edge
      · exact h4 e b hl (fun x hx => hall x (by simp [hx]))
      · rw [h3 e (fun x hx h => hl ⟨x, hx, h⟩)]
        obtain ⟨x, hx, hxe⟩ := hex
        rcases List.mem_cons.1 hx with rfl | hx
        · rw [mem_modify, if_pos hxe, hall x (by simp) hxe]
        · exact absurd ⟨x, hx, hxe⟩ hl

/-- When the ends agree, it does not matter how the ports are seen. -/
theorem clonedUp_agreed {c : Cabling} {w : World} (ha : Agreed c w) (rank : Nat → Nat)
    (s : Nat) {x : Cable} (hx : x ∈ c) :
    clonedUp rank w.ends s x = decide ((w.ends x.dp x.num).state = .up) := by
  have ha1 := (ha x hx).1
  unfold IsUp at ha1
  have hp : ∀ ends' : Nat → Nat → LPort, ends' x.dp x.num = w.ends x.dp x.num →
      ((ends' x.peerDp x.peerNum).state = .up → (w.ends x.peerDp x.peerNum).state = .up) →
      portUp ends' x = decide ((w.ends x.dp x.num).state = .up) := by
    intro ends' h1 h2
    unfold portUp
    rw [h1]
    by_cases hup : (w.ends x.dp x.num).state = .up
    · simp [hup]
    · have : ¬ (ends' x.peerDp x.peerNum).state = .up := fun h => hup (ha1.2 (h2 h))
      simp [hup, this]
  unfold clonedUp
  split
  · rename_i h
    apply hp
    · simp [endsDuring, Nat.le_of_lt h]
    · unfold endsDuring
      split
      · exact id
      · simp [LPort.new]
  · exact hp _ rfl id

theorem addNode_self {ns : List Nat} {v : Nat} (h : v ∈ ns) : addNode ns v = ns := by
  simp [addNode, h]

/-- Adding links that are there changes nothing. -/
theorem foldl_present (f : Cable → Bool) (l : Cabling) (g : Graph) (hg : Wf g)
    (h : ∀ x ∈ l, f x = true ∧ x.edge ∈ g.edges) :
    l.foldl (fun g x => modifyLink g x.dp x.num x.peerDp x.peerNum (f x)) g = g := by
  induction l with
  | nil => rfl
  | cons a l ih =>
    have ha := h a (by simp)
    have : modifyLink g a.dp a.num a.peerDp a.peerNum (f a) = g := by
      have h2 := hg _ ha.2
      have h3 : canonEdge a.dp a.num a.peerDp a.peerNum ∈ g.edges := ha.2
      unfold Cable.edge at h2
      simp only [modifyLink, ha.1, if_true, if_pos h3, addNode_self h2.1, addNode_self h2.2]
    rw [List.foldl_cons, this]
    exact ih (fun x hx => h x (by simp [hx]))

/-- A reload keeps the topology, in every switch, whichever switches have other changes,
whatever the order in which they are reconfigured and whichever switch becomes root. -/
theorem winv_reload {c : Cabling} (hc : c.Ok) {w : World} {g : Graph} (hi : WInv c w g)
    (ha : Agreed c w) (root : Nat) (rank : Nat → Nat) (changed : Nat → Bool) :
    ∃ g', WInv c (reload c root rank changed w) g' := by
  have hf : ∀ s, clonedGraph c rank w.ends (changed s) (w.graph s) s =
      c.foldl (fun g x => modifyLink g x.dp x.num x.peerDp x.peerNum
        (decide ((w.ends x.dp x.num).state = .up))) (fullGraph c) := by
    intro s
    unfold clonedGraph
    rw [hi.graph s]
    split
    · apply List.foldl_ext
      intro g x hx
      rw [clonedUp_agreed ha rank s hx]
    · rename_i hn
      simp only [Bool.or_eq_true, not_or, Bool.not_eq_true] at hn
      have hall := same_degree hi hn.2
      refine (foldl_present _ c _ (fullGraph_wf c) ?_).symm
      intro x hx
      refine ⟨?_, mem_fullGraph.2 ⟨x, hx, rfl⟩⟩
      rw [decide_eq_true_eq]
      by_contra hnu
      exact hi.neither x hx hnu (fun h => hnu ((ha x hx).1.2 h)) (.inl (ha x hx).2) (hall x hx)
  obtain ⟨k1, k2, k3, k4⟩ := foldl_cloned (fun x => decide ((w.ends x.dp x.num).state = .up)) c
    (fullGraph c) (fullGraph_wf c)
  have hedge : ∀ x ∈ c, ∀ y ∈ c, x.edge = y.edge →
      (decide ((w.ends y.dp y.num).state = .up)) = decide ((w.ends x.dp x.num).state = .up) := by
    intro x hx y hy h
    rcases edge_ends hc h with rfl | rfl
    · rfl
    · rw [decide_eq_decide]; exact (ha y hy).1
  refine ⟨c.foldl (fun g x => modifyLink g x.dp x.num x.peerDp x.peerNum
        (decide ((w.ends x.dp x.num).state = .up))) (fullGraph c), ?_⟩
  refine ⟨hf, k1, k2, ?_, ?_, ?_, ?_⟩
  · intro e he
    by_contra hn
    have : ∀ x ∈ c, e ≠ x.edge := fun x hx h => hn ⟨x, hx, h⟩
    have := (k3 e this).1 he
    exact hn (mem_fullGraph.1 this)
  · exact foldl_nodup _ c _ (foldl_nodup _ c ⟨[], []⟩ List.nodup_nil)
  · intro x hx h1 _
    refine (k4 x.edge true ⟨x, hx, rfl⟩ ?_).2 rfl
    intro y hy h
    rw [hedge x hx y hy h]
    exact decide_eq_true h1
  · intro x hx h1 _ _ hmem
    have := (k4 x.edge false ⟨x, hx, rfl⟩ (by
      intro y hy h
      rw [hedge x hx y hy h]
      exact decide_eq_false h1)).1 hmem
    simp at this

/-! ## Histories -/

/-- The states a stack can get into: from controller start, by LLDP packets and checks on its ports,
and by reloads, with or without a change of root, at times when the two ends of every link agree.
The first argument is the root. -/
inductive Reached (c : Cabling) (cfg : Cable → LCfg) : Nat → World → Prop
  | start (root : Nat) : Reached c cfg root (.start c root)
  | event {root : Nat} {w w' : World} (e : TEvent) : Reached c cfg root w → e.cable ∈ c →
      worldStep c cfg root w e = some w' → Reached c cfg root w'
  | reload {root : Nat} {w : World} (root' : Nat) (rank : Nat → Nat) (changed : Nat → Bool) :
      Reached c cfg root w → Agreed c w → Reached c cfg root' (reload c root' rank changed w)

theorem Reached.inv {c : Cabling} (hc : c.Ok) {cfg : Cable → LCfg} {root : Nat} {w : World}
    (h : Reached c cfg root w) : ∃ g, WInv c w g := by
  induction h with
  | start root => exact ⟨_, winv_start c root⟩
  | event e _ hx hs ih =>
    obtain ⟨g, hi⟩ := ih
    exact winv_step hc hi hx hs
  | reload root' rank changed _ ha ih =>
    obtain ⟨g, hi⟩ := ih
    exact winv_reload hc hi ha root' rank changed

theorem Reached.run {c : Cabling} {cfg : Cable → LCfg} {root : Nat} (es : List TEvent)
    (he : ∀ e ∈ es, e.cable ∈ c) {w w' : World} (h : Reached c cfg root w)
    (hr : worldRun c cfg root w es = some w') : Reached c cfg root w' := by
  induction es generalizing w with
  | nil => simp only [worldRun, Option.some.injEq] at hr; exact hr ▸ h
  | cons e es ih =>
    unfold worldRun at hr
    split at hr
    · simp at hr
    · rename_i w1 h1
      exact ih (fun e' h' => he e' (by simp [h'])) (h.event e (he e (by simp)) h1) hr

/-- C26: after every history all switches have the same topology graph. -/
theorem graphs_agree {c : Cabling} (hc : c.Ok) {cfg : Cable → LCfg} {root : Nat} {w : World}
    (h : Reached c cfg root w) (s t : Nat) : w.graph s = w.graph t := by
  obtain ⟨g, hi⟩ := h.inv hc
  rw [hi.graph s, hi.graph t]

/-- C26, C28: after every history, if the two ends of every link agree, then the topology graph of
every switch is exactly the links that are up, so the theorems about settled stacks apply. -/
theorem settled_of_history {c : Cabling} (hc : c.Ok) {cfg : Cable → LCfg} {root : Nat}
    (hr : ∃ x ∈ c, x.dp = root) {w : World} (h : Reached c cfg root w) (ha : Agreed c w) :
    ∃ g, Settled (w.net c root) g root := by
  obtain ⟨g, hi⟩ := h.inv hc
  exact ⟨g, settled_of_inv hc hi ha hr⟩

/-- C26: in every switch's graph after every history: a link whose two ends are up is there, a link
neither of whose ends is up is not (unless neither has ever been looked at), and nothing else is. -/
theorem graph_of_history {c : Cabling} (hc : c.Ok) {cfg : Cable → LCfg} {root : Nat} {w : World}
    (h : Reached c cfg root w) (s : Nat) :
    (∀ e ∈ (w.graph s).edges, ∃ x ∈ c, e = x.edge) ∧
    ∀ x ∈ c, (IsUp w x.dp x.num → IsUp w x.peerDp x.peerNum → x.edge ∈ (w.graph s).edges) ∧
      (¬ IsUp w x.dp x.num → ¬ IsUp w x.peerDp x.peerNum → (w.ends x.dp x.num).state ≠ .none →
        x.edge ∉ (w.graph s).edges) := by
  obtain ⟨g, hi⟩ := h.inv hc
  rw [hi.graph s]
  exact ⟨hi.known, fun x hx => ⟨hi.both x hx, fun h1 h2 h3 => hi.neither x hx h1 h2 (.inl h3)⟩⟩

end Faucet.Stack
