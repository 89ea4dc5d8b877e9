import Verif.Base.Sort
import Mathlib.Data.List.Nodup
import Mathlib.Data.List.Perm.Subperm

/-!
# The stack topology graph and shortest paths

Model of `/repo/faucet/stack.py` 322-413.  Switch names are strings in the code; only their total
order and equality matter here, so they are natural numbers.  A port is identified by its number
(the code uses `port.name`, which is the number unless configured otherwise; names are unique per
switch either way).  An edge key is the text `dp:port-dp:port`; it is modelled by the four
components it is made of.
-/

namespace Faucet.Stack

/-- A stack link in canonical direction, stack.py 326-348: the two (switch, port) ends with the
smaller end first.  Serves as both edge and edge key. -/
structure Edge where
  aDp : Nat
  aPort : Nat
  zDp : Nat
  zPort : Nat
deriving DecidableEq, Repr

/-- `networkx.MultiGraph` as used by stack.py: a node list and a list of keyed edges. -/
structure Graph where
  nodes : List Nat
  edges : List Edge
deriving Repr

/-- `canonical_edge`, stack.py 326-333: the two ends sorted by (switch name, port name). -/
def canonEdge (d1 p1 d2 p2 : Nat) : Edge :=
  if d1 < d2 ∨ (d1 = d2 ∧ p1 ≤ p2) then ⟨d1, p1, d2, p2⟩ else ⟨d2, p2, d1, p1⟩

/-- Insert a node if it is not there (`MultiGraph.add_node`). -/
def addNode (ns : List Nat) (v : Nat) : List Nat := if v ∈ ns then ns else ns ++ [v]

/-- `modify_topology(graph, dp, port, add)`, stack.py 322-367. -/
def modifyLink (g : Graph) (d1 p1 d2 p2 : Nat) (add : Bool) : Graph :=
  let e := canonEdge d1 p1 d2 p2
  if add then
    ⟨addNode (addNode g.nodes e.aDp) e.zDp, if e ∈ g.edges then g.edges else g.edges ++ [e]⟩
  else ⟨g.nodes, g.edges.filter (fun x => x ≠ e)⟩

/-- Two switches are neighbours in the graph: some edge joins them, whichever way round. -/
def adj (g : Graph) (u v : Nat) : Bool :=
  g.edges.any (fun e => (e.aDp == u && e.zDp == v) || (e.aDp == v && e.zDp == u))

/-- Neighbours of a switch (`graph.adj[v]`). -/
def nbrs (g : Graph) (v : Nat) : List Nat := g.nodes.filter (fun w => adj g v w)

/-- All walks with `k` edges from `s` to `d`. -/
def walks (g : Graph) : Nat → Nat → Nat → List (List Nat)
  | 0, s, d => if s = d then [[s]] else []
  | k + 1, s, d => (nbrs g s).flatMap (fun w => (walks g k w d).map (fun p => s :: p))

/-- `networkx.all_shortest_paths(graph, s, d)`: every walk of the least length for which there is
one; empty stands for `NetworkXNoPath`.  The library is modelled by what its documentation says it
returns. -/
def allShortest (g : Graph) (s d : Nat) : Nat → Nat → List (List Nat)
  | 0, _ => []
  | f + 1, k => if (walks g k s d).isEmpty then allShortest g s d f (k + 1) else walks g k s d

/-- Order of Python lists: lexicographic. -/
def lexLe : List Nat → List Nat → Bool
  | [], _ => true
  | _ :: _, [] => false
  | a :: as, b :: bs => decide (a < b) || (decide (a = b) && lexLe as bs)

/-- `shortest_path(dest, src)`, stack.py 402-413: `sorted(all_shortest_paths)[0]`, or `[]` when the
graph is empty, a node is missing or there is no path. -/
def shortestPath (g : Graph) (s d : Nat) : List Nat :=
  if s ∈ g.nodes ∧ d ∈ g.nodes then
    (isort lexLe (allShortest g s d g.nodes.length 0)).headD []
  else []

/-! ## Specification: walks -/

/-- A walk from one switch to another, one link at a time. -/
inductive Walk (r : Nat → Nat → Prop) : Nat → Nat → List Nat → Prop
  | refl (v : Nat) : Walk r v v [v]
  | step {u v d : Nat} {w : List Nat} : r u v → Walk r v d w → Walk r u d (u :: w)

/-- Two switches are joined by links. -/
def Connected (r : Nat → Nat → Prop) (s d : Nat) : Prop := ∃ w, Walk r s d w

/-- Neighbourhood as a proposition. -/
def Adj (g : Graph) (u v : Nat) : Prop := adj g u v = true

/-- Graphs built by `modify_topology` only have edges between their nodes. -/
def Wf (g : Graph) : Prop := ∀ e ∈ g.edges, e.aDp ∈ g.nodes ∧ e.zDp ∈ g.nodes

/-! ## Lemmas about the order -/

theorem lexLe_refl (l : List Nat) : lexLe l l = true := by
  induction l with
  | nil => rfl
  | cons a l ih => simp [lexLe, ih]

theorem lexLe_total (l m : List Nat) : lexLe l m = true ∨ lexLe m l = true := by
  induction l generalizing m with
  | nil => exact .inl rfl
  | cons a l ih =>
    cases m with
    | nil => exact .inr rfl
    | cons b m =>
      simp only [lexLe, Bool.or_eq_true, decide_eq_true_eq, Bool.and_eq_true]
      rcases Nat.lt_trichotomy a b with h | h | h
      · exact .inl (.inl h)
      · rcases ih m with h' | h'
        · exact .inl (.inr ⟨h, h'⟩)
        · exact .inr (.inr ⟨h.symm, h'⟩)
      · exact .inr (.inl h)

theorem lexLe_trans (l m n : List Nat) (h1 : lexLe l m = true) (h2 : lexLe m n = true) :
    lexLe l n = true := by
  induction l generalizing m n with
  | nil => rfl
  | cons a l ih =>
    cases m with
    | nil => simp [lexLe] at h1
    | cons b m =>
      cases n with
      | nil => simp [lexLe] at h2
      | cons c n =>
        simp only [lexLe, Bool.or_eq_true, decide_eq_true_eq, Bool.and_eq_true] at h1 h2 ⊢
        rcases h1 with h1 | ⟨rfl, h1⟩
        · rcases h2 with h2 | ⟨rfl, h2⟩
          · exact .inl (Nat.lt_trans h1 h2)
          · exact .inl h1
        · rcases h2 with h2 | ⟨rfl, h2⟩
          · exact .inl h2
          · exact .inr ⟨rfl, ih m n h1 h2⟩

theorem lexLe_antisymm (l m : List Nat) (h1 : lexLe l m = true) (h2 : lexLe m l = true) :
    l = m := by
  induction l generalizing m with
  | nil =>
    cases m with
    | nil => rfl
    | cons b m => simp [lexLe] at h2
  | cons a l ih =>
    cases m with
    | nil => simp [lexLe] at h1
    | cons b m =>
      simp only [lexLe, Bool.or_eq_true, decide_eq_true_eq, Bool.and_eq_true] at h1 h2
      rcases h1 with h1 | ⟨rfl, h1⟩
      · rcases h2 with h2 | ⟨rfl, h2⟩
        · omega
        · omega
      · rcases h2 with h2 | ⟨_, h2⟩
        · omega
        · rw [ih m h1 h2]

/-- The first of a sorted non-empty list is one of its members and below all of them. -/
theorem head_isort {L : List (List Nat)} (h : L ≠ []) :
    (isort lexLe L).headD [] ∈ L ∧ ∀ x ∈ L, lexLe ((isort lexLe L).headD []) x = true := by
  have hp := isort_pairwise (le := lexLe) lexLe_total lexLe_trans L
  cases hs : isort lexLe L with
  | nil => exact absurd (isort_eq_nil.1 hs) h
  | cons a l =>
    rw [hs] at hp
    have hm : ∀ x, x ∈ a :: l ↔ x ∈ L := fun x => by rw [← hs]; exact mem_isort
    refine ⟨(hm _).1 (by simp), ?_⟩
    intro x hx
    rcases List.mem_cons.1 ((hm x).2 hx) with rfl | hx
    · exact lexLe_refl _
    · exact (List.pairwise_cons.1 hp).1 x hx

/-! ## Walks -/

theorem adj_symm (g : Graph) (u v : Nat) : adj g u v = adj g v u := by
  unfold adj
  congr 1
  funext e
  rw [Bool.or_comm]

theorem Adj.symm {g : Graph} {u v : Nat} (h : Adj g u v) : Adj g v u := by
  unfold Adj at *; rw [adj_symm]; exact h

theorem Adj.mem {g : Graph} (hw : Wf g) {u v : Nat} (h : Adj g u v) : u ∈ g.nodes ∧ v ∈ g.nodes := by
  unfold Adj adj at h
  obtain ⟨e, he, h⟩ := List.any_eq_true.1 h
  have := hw e he
  simp only [Bool.or_eq_true, Bool.and_eq_true, beq_iff_eq] at h
  rcases h with ⟨rfl, rfl⟩ | ⟨rfl, rfl⟩
  · exact this
  · exact this.symm

theorem Walk.ne_nil {r : Nat → Nat → Prop} {s d : Nat} {w : List Nat} (h : Walk r s d w) : w ≠ [] := by
  cases h <;> simp

theorem Walk.head {r : Nat → Nat → Prop} {s d : Nat} {w : List Nat} (h : Walk r s d w) :
    ∃ t, w = s :: t := by
  cases h with
  | refl => exact ⟨_, rfl⟩
  | step _ _ => exact ⟨_, rfl⟩

theorem Walk.last {r : Nat → Nat → Prop} {s d : Nat} {w : List Nat} (h : Walk r s d w) :
    w.getLast? = some d := by
  induction h with
  | refl => rfl
  | step _ h ih =>
    obtain ⟨t, rfl⟩ := h.head
    rw [List.getLast?_cons_cons]; exact ih

theorem Walk.dst_mem {r : Nat → Nat → Prop} {s d : Nat} {w : List Nat} (h : Walk r s d w) : d ∈ w := by
  induction h with
  | refl => simp
  | step _ _ ih => exact List.mem_cons_of_mem _ ih

/-- A walk can be cut at any switch on it. -/
theorem Walk.cut {r : Nat → Nat → Prop} {s d : Nat} {w : List Nat} (h : Walk r s d w) {x : Nat}
    (hx : x ∈ w) : ∃ a b, w = a ++ b ∧ Walk r x d b := by
  induction h with
  | refl v => simp at hx; subst hx; exact ⟨[], [x], rfl, .refl x⟩
  | @step u v d w hr h ih =>
    rcases List.mem_cons.1 hx with rfl | hx
    · exact ⟨[], _, rfl, .step hr h⟩
    · obtain ⟨a, b, rfl, hb⟩ := ih hx
      exact ⟨u :: a, b, rfl, hb⟩

theorem Walk.mem_nodes {g : Graph} (hw : Wf g) {s d : Nat} {w : List Nat} (h : Walk (Adj g) s d w)
    (hs : s ∈ g.nodes) : ∀ x ∈ w, x ∈ g.nodes := by
  induction h with
  | refl => intro x hx; simp at hx; subst hx; exact hs
  | step hr _ ih =>
    intro x hx
    rcases List.mem_cons.1 hx with rfl | hx
    · exact hs
    · exact ih (hr.mem hw).2 x hx

theorem mem_walks {g : Graph} (hw : Wf g) (k : Nat) (s d : Nat) (w : List Nat) :
    w ∈ walks g k s d ↔ Walk (Adj g) s d w ∧ w.length = k + 1 := by
  induction k generalizing s w with
  | zero =>
    unfold walks
    constructor
    · intro h
      split at h
      · rename_i hsd
        simp at h
        subst h; subst hsd
        exact ⟨.refl s, rfl⟩
      · simp at h
    · rintro ⟨h, hl⟩
      cases h with
      | refl => simp
      | step hr h => obtain ⟨t, rfl⟩ := h.head; simp at hl
  | succ k ih =>
    unfold walks
    simp only [List.mem_flatMap, List.mem_map, nbrs, List.mem_filter]
    constructor
    · rintro ⟨v, ⟨hv, ha⟩, p, hp, rfl⟩
      obtain ⟨h1, h2⟩ := (ih v p).1 hp
      exact ⟨.step ha h1, by simp [h2]⟩
    · rintro ⟨h, hl⟩
      cases h with
      | refl => simp at hl
      | @step _ v _ p hr h =>
        refine ⟨v, ⟨(hr.mem hw).2, hr⟩, p, (ih v p).2 ⟨h, by simpa using hl⟩, rfl⟩

theorem allShortest_spec (g : Graph) (s d f k : Nat)
    (hk : ∀ j, j < k → walks g j s d = []) :
    (allShortest g s d f k = [] ∧ ∀ j, j < k + f → walks g j s d = []) ∨
    ∃ j, allShortest g s d f k = walks g j s d ∧ walks g j s d ≠ [] ∧
      ∀ i, i < j → walks g i s d = [] := by
  induction f generalizing k with
  | zero => exact .inl ⟨rfl, by simpa using hk⟩
  | succ f ih =>
    unfold allShortest
    by_cases he : walks g k s d = []
    · rw [if_pos (by simp [he])]
      have := ih (k + 1) (fun j hj => by
        rcases Nat.lt_succ_iff_lt_or_eq.1 hj with h | rfl
        · exact hk j h
        · exact he)
      rcases this with ⟨h1, h2⟩ | h
      · exact .inl ⟨h1, fun j hj => h2 j (by omega)⟩
      · exact .inr h
    · rw [if_neg (by simpa using he)]
      exact .inr ⟨k, rfl, he, hk⟩

/-- If there is a walk, there is one that visits no switch twice and is no longer. -/
theorem Walk.shorten {r : Nat → Nat → Prop} {s d : Nat} : ∀ (n : Nat) {w : List Nat},
    Walk r s d w → w.length ≤ n → ∃ w', Walk r s d w' ∧ w'.Nodup ∧ w'.length ≤ w.length := by
  intro n
  induction n generalizing s with
  | zero =>
    intro w h hl
    exact absurd (List.eq_nil_of_length_eq_zero (Nat.le_zero.1 hl)) h.ne_nil
  | succ n ih =>
    intro w h hl
    cases h with
    | refl => exact ⟨[d], .refl d, by simp, by simp⟩
    | @step _ v _ p hr h =>
      have hpn : p.length ≤ n := by simp only [List.length_cons] at hl; omega
      by_cases hs : s ∈ p
      · obtain ⟨a, b, hab, hb⟩ := h.cut hs
        have hbl : b.length ≤ p.length := by rw [hab]; simp
        obtain ⟨w', h1, h2, h3⟩ := ih hb (by omega)
        exact ⟨w', h1, h2, by simp only [List.length_cons]; omega⟩
      · obtain ⟨w', h1, h2, h3⟩ := ih h hpn
        by_cases hs' : s ∈ w'
        · obtain ⟨a, b, hab, hb⟩ := h1.cut hs'
          refine ⟨b, hb, ?_, ?_⟩
          · rw [hab] at h2; exact (List.nodup_append.1 h2).2.1
          · have : b.length ≤ w'.length := by rw [hab]; simp
            simp only [List.length_cons]; omega
        · exact ⟨s :: w', .step hr h1, List.nodup_cons.2 ⟨hs', h2⟩, by simpa using h3⟩

/-! ## What `shortest_path` returns -/

/-- The path returned is a walk, no walk is shorter, and among the shortest it is the
lexicographically least. -/
theorem shortestPath_spec {g : Graph} (hw : Wf g) {s d : Nat} (hs : s ∈ g.nodes)
    (hc : Connected (Adj g) s d) :
    Walk (Adj g) s d (shortestPath g s d) ∧
    ∀ w, Walk (Adj g) s d w → (shortestPath g s d).length ≤ w.length ∧
      (w.length = (shortestPath g s d).length → lexLe (shortestPath g s d) w = true) := by
  obtain ⟨w0, hw0⟩ := hc
  have hd : d ∈ g.nodes := hw0.mem_nodes hw hs d hw0.dst_mem
  have hex : ∃ j, j < g.nodes.length ∧ walks g j s d ≠ [] := by
    obtain ⟨w', h1, h2, _⟩ := hw0.shorten _ (Nat.le_refl _)
    have hsub : w'.length ≤ g.nodes.length :=
      (List.subperm_of_subset h2 (fun x hx => h1.mem_nodes hw hs x hx)).length_le
    have hpos : 0 < w'.length := List.length_pos_iff.2 h1.ne_nil
    refine ⟨w'.length - 1, by omega, ?_⟩
    intro he
    have : w' ∈ walks g (w'.length - 1) s d := (mem_walks hw _ _ _ _).2 ⟨h1, by omega⟩
    rw [he] at this
    simp at this
  have key := allShortest_spec g s d g.nodes.length 0 (fun j hj => by omega)
  rcases key with ⟨_, h2⟩ | ⟨j, h1, h2, h3⟩
  · obtain ⟨j, hj, hne⟩ := hex
    exact absurd (h2 j (by omega)) hne
  · have hp : shortestPath g s d = (isort lexLe (walks g j s d)).headD [] := by
      unfold shortestPath; rw [if_pos ⟨hs, hd⟩, h1]
    rw [hp]
    obtain ⟨hm, hmin⟩ := head_isort h2
    obtain ⟨hwk, hlen⟩ := (mem_walks hw _ _ _ _).1 hm
    refine ⟨hwk, ?_⟩
    intro w hww
    have hpos : 0 < w.length := List.length_pos_iff.2 hww.ne_nil
    constructor
    · rw [hlen]
      by_contra hlt
      have := h3 (w.length - 1) (by omega)
      have hmem : w ∈ walks g (w.length - 1) s d := (mem_walks hw _ _ _ _).2 ⟨hww, by omega⟩
      rw [this] at hmem
      simp at hmem
    · intro hl
      exact hmin w ((mem_walks hw _ _ _ _).2 ⟨hww, by omega⟩)

/-- With no walk there is no path. -/
theorem shortestPath_none {g : Graph} (hw : Wf g) {s d : Nat}
    (hc : ¬ Connected (Adj g) s d) : shortestPath g s d = [] := by
  unfold shortestPath
  split
  · rcases allShortest_spec g s d g.nodes.length 0 (fun j hj => by omega) with ⟨h, _⟩ | ⟨j, _, h2, _⟩
    · rw [h]; rfl
    · obtain ⟨w, hw'⟩ := List.exists_mem_of_ne_nil _ h2
      exact absurd ⟨w, ((mem_walks hw _ _ _ _).1 hw').1⟩ hc
  · rfl

theorem shortestPath_ne_nil_iff {g : Graph} (hw : Wf g) {s d : Nat} (hs : s ∈ g.nodes) :
    shortestPath g s d ≠ [] ↔ Connected (Adj g) s d := by
  constructor
  · intro h
    by_contra hc
    exact h (shortestPath_none hw hc)
  · intro hc
    exact (shortestPath_spec hw hs hc).1.ne_nil

theorem Connected.refl (r : Nat → Nat → Prop) (v : Nat) : Connected r v v := ⟨[v], .refl v⟩

theorem Connected.step {r : Nat → Nat → Prop} {u v d : Nat} (h : r u v) (hc : Connected r v d) :
    Connected r u d := by
  obtain ⟨w, hw⟩ := hc
  exact ⟨u :: w, .step h hw⟩

/-- The path from a switch to itself. -/
theorem shortestPath_self {g : Graph} (hw : Wf g) {s : Nat} (hs : s ∈ g.nodes) :
    shortestPath g s s = [s] := by
  obtain ⟨h1, h2⟩ := shortestPath_spec hw hs (.refl _ s)
  have := (h2 [s] (.refl s)).1
  obtain ⟨t, ht⟩ := h1.head
  rw [ht] at this ⊢
  simp only [List.length_cons, List.length_nil] at this
  rw [List.eq_nil_of_length_eq_zero (l := t) (by omega)]

/-- The path goes on exactly as the path of its second switch does. -/
theorem shortestPath_cons {g : Graph} (hw : Wf g) {s d : Nat} (hs : s ∈ g.nodes)
    (hc : Connected (Adj g) s d) (hne : s ≠ d) :
    ∃ v, Adj g s v ∧ v ∈ g.nodes ∧ Connected (Adj g) v d ∧
      shortestPath g s d = s :: shortestPath g v d := by
  obtain ⟨h1, h2⟩ := shortestPath_spec hw hs hc
  generalize hp : shortestPath g s d = p at h1 h2
  cases h1 with
  | refl => exact absurd rfl hne
  | @step _ v _ q hr hq =>
    have hv := (hr.mem hw).2
    have hcv : Connected (Adj g) v d := ⟨q, hq⟩
    obtain ⟨k1, k2⟩ := shortestPath_spec hw hv hcv
    refine ⟨v, hr, hv, hcv, ?_⟩
    congr 1
    have hle1 := (k2 q hq).1
    have hle2 := (h2 (s :: shortestPath g v d) (.step hr k1)).1
    simp only [List.length_cons] at hle2
    have hlen : (shortestPath g v d).length = q.length := by omega
    have a1 := (h2 (s :: shortestPath g v d) (.step hr k1)).2 (by simp [hlen])
    have a2 := (k2 q hq).2 hlen.symm
    simp only [lexLe, Nat.lt_irrefl, decide_false, decide_true, Bool.true_and, Bool.false_or] at a1
    exact lexLe_antisymm _ _ a1 a2

/-- Neighbours' paths differ in length by at most one. -/
theorem shortestPath_adj {g : Graph} (hw : Wf g) {u v d : Nat} (h : Adj g u v)
    (hc : Connected (Adj g) v d) :
    (shortestPath g u d).length ≤ (shortestPath g v d).length + 1 := by
  obtain ⟨hu, hv⟩ := h.mem hw
  obtain ⟨k1, _⟩ := shortestPath_spec hw hv hc
  obtain ⟨_, h2⟩ := shortestPath_spec hw hu (.step h hc)
  have := (h2 _ (.step h k1)).1
  simpa using this

end Faucet.Stack
