import Verif.Stack.Peers

/-!
# The links that carry broadcasts form a tree (C26)

Everything here is about a *settled* stack: every switch's topology graph lists exactly the links
whose two ends are both up, and every switch agrees who the root is.
-/

namespace Faucet.Stack

/-- A settled stack with root `r`: the cabling is symmetric, the two ends of every link agree
whether it is up, every switch's graph is the graph of the links that are up, and every switch has
the same root. -/
structure Settled (n : Net) (g : Graph) (r : Nat) : Prop where
  wf : Wf g
  graph : ∀ s, n.graph s = g
  root : ∀ s, n.root s = r
  rootIn : r ∈ g.nodes
  nums : ∀ s, ((n.ports s).map (·.num)).Nodup
  cabled : ∀ s, ∀ p ∈ n.ports s, ∃ q ∈ n.ports p.peerDp,
    q.num = p.peerNum ∧ q.peerDp = s ∧ q.peerNum = p.num ∧ q.up = p.up
  noSelf : ∀ s, ∀ p ∈ n.ports s, p.peerDp ≠ s
  links : ∀ u v, Adj g u v ↔ ∃ p ∈ n.ports u, p.up = true ∧ p.peerDp = v

section
variable {n : Net} {g : Graph} {r : Nat}

/-! ## Sorting by number -/

theorem mem_canonOrder {ps : List SPort} {p : SPort} : p ∈ canonOrder ps ↔ p ∈ ps := mem_isort

theorem mem_canonUp {ps : List SPort} {p : SPort} : p ∈ canonUp ps ↔ p ∈ ps ∧ p.up = true := by
  unfold canonUp; rw [mem_canonOrder, List.mem_filter]

theorem mem_peerPorts {s : Nat} {p : SPort} : p ∈ peerPorts n s ↔ p ∈ n.ports s ∧ p.up = true :=
  mem_canonUp

/-- The first of the canonical order has the least number. -/
theorem canonOrder_head {ps : List SPort} {p : SPort} (h : (canonOrder ps).head? = some p) :
    p ∈ ps ∧ ∀ q ∈ ps, p.num ≤ q.num := by
  have hp := isort_pairwise (le := fun a b : SPort => decide (a.num ≤ b.num))
    (fun a b => by simpa using Nat.le_total a.num b.num)
    (fun a b c h1 h2 => by simp only [decide_eq_true_eq] at *; omega) ps
  unfold canonOrder at h
  cases hs : isort (fun a b : SPort => decide (a.num ≤ b.num)) ps with
  | nil => rw [hs] at h; simp at h
  | cons a l =>
    rw [hs] at h hp
    simp only [List.head?_cons, Option.some.injEq] at h
    subst h
    have hm : ∀ x, x ∈ a :: l ↔ x ∈ ps := fun x => by rw [← hs]; exact mem_isort
    refine ⟨(hm _).1 (by simp), ?_⟩
    intro q hq
    rcases List.mem_cons.1 ((hm q).2 hq) with rfl | hq
    · exact Nat.le_refl _
    · simpa using (List.pairwise_cons.1 hp).1 q hq

theorem canonUp_head {ps : List SPort} {p : SPort} (h : (canonUp ps).head? = some p) :
    p ∈ ps ∧ p.up = true ∧ ∀ q ∈ ps, q.up = true → p.num ≤ q.num := by
  obtain ⟨h1, h2⟩ := canonOrder_head h
  obtain ⟨h3, h4⟩ := List.mem_filter.1 h1
  exact ⟨h3, h4, fun q hq hu => h2 q (List.mem_filter.2 ⟨hq, hu⟩)⟩

theorem canonUp_head_some {ps : List SPort} {q : SPort} (hq : q ∈ ps) (hu : q.up = true) :
    ∃ p, (canonUp ps).head? = some p := by
  have : q ∈ canonUp ps := mem_canonUp.2 ⟨hq, hu⟩
  cases hs : canonUp ps with
  | nil => rw [hs] at this; simp at this
  | cons a l => exact ⟨a, rfl⟩

/-! ## Ports -/

theorem Settled.inj (st : Settled n g r) {s : Nat} {p q : SPort} (hp : p ∈ n.ports s)
    (hq : q ∈ n.ports s) (h : p.num = q.num) : p = q :=
  List.inj_on_of_nodup_map (st.nums s) hp hq h

/-- The remote end, found by its number. -/
theorem Settled.remote (st : Settled n g r) {s : Nat} {p : SPort} (hp : p ∈ n.ports s) :
    ∃ q, remote n p = some q ∧ q ∈ n.ports p.peerDp ∧ q.num = p.peerNum ∧ q.peerDp = s ∧
      q.peerNum = p.num ∧ q.up = p.up ∧ remote n q = some p := by
  have find : ∀ {t : Nat} {x y : SPort}, y ∈ n.ports x.peerDp → y.num = x.peerNum →
      Faucet.Stack.remote n x = some y := by
    intro t x y hy hn
    unfold Faucet.Stack.remote
    cases hf : (n.ports x.peerDp).find? (fun z => z.num == x.peerNum) with
    | none =>
      have := List.find?_eq_none.1 hf y hy
      simp [hn] at this
    | some z =>
      have h1 := List.find?_some hf
      have h2 := List.mem_of_find?_eq_some hf
      simp only [beq_iff_eq] at h1
      rw [st.inj h2 hy (by omega)]
  obtain ⟨q, hq, h1, h2, h3, h4⟩ := st.cabled s p hp
  refine ⟨q, find (t := s) hq h1, hq, h1, h2, h3, h4, find (t := s) ?_ ?_⟩
  · rw [h2]; exact hp
  · exact h3.symm

/-- Length of the path to the root. -/
def dist (g : Graph) (r s : Nat) : Nat := (shortestPath g s r).length

/-- A switch is part of the stack: links join it to the root. -/
abbrev InStack (g : Graph) (r s : Nat) : Prop := Connected (Adj g) s r

theorem connected_symm {g : Graph} {u v : Nat} (h : Connected (Adj g) u v) : Connected (Adj g) v u := by
  obtain ⟨w, hw⟩ := h
  induction hw with
  | refl v => exact .refl _ v
  | @step a b d w hr h ih =>
    obtain ⟨w', hw'⟩ := ih
    clear h
    induction hw' with
    | refl x => exact .step hr.symm (.refl _ _)
    | step h1 _ ih2 => exact .step h1 (ih2 hr)

theorem inStack_mem (st : Settled n g r) {s : Nat} (h : InStack g r s) : s ∈ g.nodes := by
  obtain ⟨w, hw⟩ := h
  cases hw with
  | refl => exact st.rootIn
  | step hr _ => exact (hr.mem st.wf).1

theorem dist_root (st : Settled n g r) : dist g r r = 1 := by
  unfold dist; rw [shortestPath_self st.wf st.rootIn]; rfl

theorem pathToRoot_eq (st : Settled n g r) (s : Nat) : pathToRoot n s = shortestPath g s r := by
  unfold pathToRoot; rw [st.graph, st.root]

theorem isRoot_eq (st : Settled n g r) (s : Nat) : isRoot n s = decide (s = r) := by
  unfold isRoot; rw [st.root]; rfl

theorem peerDist_eq (st : Settled n g r) (p : SPort) : peerDist n p = dist g r p.peerDp := by
  unfold peerDist dist; rw [pathToRoot_eq st]

/-- The parent of a switch: the next switch on its path to the root. -/
def IsParent (g : Graph) (r s t : Nat) : Prop := shortestPath g s r = s :: shortestPath g t r ∧ Adj g s t

theorem exists_parent (st : Settled n g r) {s : Nat} (h : InStack g r s) (hne : s ≠ r) :
    ∃ t, IsParent g r s t ∧ InStack g r t ∧ dist g r s = dist g r t + 1 := by
  obtain ⟨v, h1, _, h3, h4⟩ := shortestPath_cons st.wf (inStack_mem st h) h hne
  exact ⟨v, ⟨h4, h1⟩, h3, by unfold dist; rw [h4]; rfl⟩

theorem path_head (st : Settled n g r) {s : Nat} (h : InStack g r s) :
    ∃ l, shortestPath g s r = s :: l :=
  (shortestPath_spec st.wf (inStack_mem st h) h).1.head

theorem dist_pos (st : Settled n g r) {s : Nat} (h : InStack g r s) : 0 < dist g r s := by
  obtain ⟨l, hl⟩ := path_head st h
  unfold dist; rw [hl]; simp

theorem parent_inStack (_st : Settled n g r) {s t : Nat} (h : InStack g r s) (hp : IsParent g r s t) :
    InStack g r t := .step hp.2.symm h

theorem IsParent.dist {s t : Nat} (hp : IsParent g r s t) :
    Faucet.Stack.dist g r s = Faucet.Stack.dist g r t + 1 := by
  unfold Faucet.Stack.dist; rw [hp.1]; rfl

theorem IsParent.unique (st : Settled n g r) {s t u : Nat} (h : InStack g r s)
    (h1 : IsParent g r s t) (h2 : IsParent g r s u) : t = u := by
  obtain ⟨l, hl⟩ := path_head st (parent_inStack st h h1)
  obtain ⟨m, hm⟩ := path_head st (parent_inStack st h h2)
  have := h1.1.symm.trans h2.1
  rw [hl, hm] at this
  simp at this
  exact this.1

theorem IsParent.ne_root (st : Settled n g r) {s t : Nat} (h : InStack g r s) (hp : IsParent g r s t) : s ≠ r := by
  rintro rfl
  have h1 := hp.dist
  have h2 := dist_pos st (parent_inStack st h hp)
  rw [dist_root st] at h1
  omega

/-- Switches on the path to the root are at least as close to it; only the first is as far. -/
theorem path_dist (st : Settled n g r) : ∀ (k : Nat) {s : Nat}, InStack g r s → dist g r s = k →
    ∀ x ∈ shortestPath g s r, InStack g r x ∧ (x = s ∨ dist g r x < dist g r s) := by
  intro k
  induction k with
  | zero => intro s h hk; have := dist_pos st h; omega
  | succ k ih =>
    intro s h hk x hx
    by_cases hr : s = r
    · subst hr
      rw [shortestPath_self st.wf st.rootIn] at hx
      simp at hx; subst hx
      exact ⟨h, .inl rfl⟩
    · obtain ⟨t, hp, ht, hd⟩ := exists_parent st h hr
      rw [hp.1] at hx
      rcases List.mem_cons.1 hx with rfl | hx
      · exact ⟨h, .inl rfl⟩
      · obtain ⟨h1, h2⟩ := ih ht (by omega) x hx
        refine ⟨h1, .inr ?_⟩
        rcases h2 with rfl | h2 <;> omega

/-- A neighbour on the path to the root is the next switch on it. -/
theorem adj_in_path (st : Settled n g r) {s t : Nat} (h : InStack g r s) (ha : Adj g s t) (hst : s ≠ t) :
    t ∈ shortestPath g s r ↔ IsParent g r s t := by
  constructor
  · intro ht
    have hne : s ≠ r := by
      rintro rfl
      rw [shortestPath_self st.wf st.rootIn] at ht
      simp at ht; exact hst ht.symm
    obtain ⟨v, hp, hv, hd⟩ := exists_parent st h hne
    rw [hp.1] at ht
    rcases List.mem_cons.1 ht with h' | ht
    · exact absurd h'.symm hst
    · obtain ⟨hti, h1⟩ := path_dist st _ hv rfl t ht
      rcases h1 with rfl | h1
      · exact hp
      · exfalso
        have := shortestPath_adj st.wf ha hti
        unfold dist at *
        omega
  · intro hp
    rw [hp.1]
    obtain ⟨l, hl⟩ := path_head st (parent_inStack st h hp)
    rw [hl]; simp

theorem port_adj (st : Settled n g r) {s : Nat} {p : SPort} (hp : p ∈ peerPorts n s) : Adj g s p.peerDp := by
  obtain ⟨h1, h2⟩ := mem_peerPorts.1 hp
  exact (st.links _ _).2 ⟨p, h1, h2, rfl⟩

theorem port_ne (st : Settled n g r) {s : Nat} {p : SPort} (hp : p ∈ peerPorts n s) : s ≠ p.peerDp :=
  (st.noSelf s p (mem_peerPorts.1 hp).1).symm

/-! ## Least distance -/

theorem shortestPeerDist_spec (n : Net) (ps : List SPort) (d : Nat)
    (h : shortestPeerDist n ps = some d) :
    (∃ p ∈ ps, peerDist n p = d) ∧ ∀ p ∈ ps, d ≤ peerDist n p := by
  induction ps generalizing d with
  | nil => simp [shortestPeerDist] at h
  | cons p ps ih =>
    unfold shortestPeerDist at h
    cases hs : shortestPeerDist n ps with
    | none =>
      rw [hs] at h
      simp only [Option.some.injEq] at h
      cases ps with
      | nil => subst h; exact ⟨⟨p, by simp, rfl⟩, by simp⟩
      | cons q qs =>
        unfold shortestPeerDist at hs
        split at hs <;> simp at hs
    | some e =>
      rw [hs] at h
      simp only [Option.some.injEq] at h
      obtain ⟨⟨q, hq, he⟩, hmin⟩ := ih e hs
      constructor
      · rcases Nat.le_total (peerDist n p) e with hle | hle
        · exact ⟨p, by simp, by omega⟩
        · exact ⟨q, List.mem_cons_of_mem _ hq, by omega⟩
      · intro x hx
        rcases List.mem_cons.1 hx with rfl | hx
        · omega
        · have := hmin x hx; omega

theorem shortestPeerDist_some (n : Net) {ps : List SPort} {p : SPort} (h : p ∈ ps) :
    ∃ d, shortestPeerDist n ps = some d := by
  cases ps with
  | nil => simp at h
  | cons q qs =>
    unfold shortestPeerDist
    split <;> exact ⟨_, rfl⟩

/-- At a switch of the stack other than the root, the ports towards the root are those whose peer
is one step closer. -/
theorem mem_towards (st : Settled n g r) {s : Nat} (h : InStack g r s) {p : SPort} :
    p ∈ towards n s ↔ s ≠ r ∧ p ∈ peerPorts n s ∧ dist g r s = dist g r p.peerDp + 1 := by
  unfold towards
  rw [isRoot_eq st]
  by_cases hr : s = r
  · simp [hr]
  · rw [if_neg (by simpa using hr), List.mem_filter]
    simp only [beq_iff_eq, ne_eq, hr, not_false_eq_true, true_and]
    refine and_congr_right fun hp => ?_
    obtain ⟨t, hpt, ht, hd⟩ := exists_parent st h hr
    obtain ⟨q, hq, hqu, hqt⟩ := (st.links s t).1 hpt.2
    have hq' : q ∈ peerPorts n s := mem_peerPorts.2 ⟨hq, hqu⟩
    obtain ⟨d, hsd⟩ := shortestPeerDist_some n hq'
    obtain ⟨⟨x, hx, hxd⟩, hmin⟩ := shortestPeerDist_spec n _ d hsd
    have hlow : ∀ y ∈ peerPorts n s, dist g r t ≤ peerDist n y := by
      intro y hy
      have ha := port_adj st hy
      have hc : InStack g r y.peerDp := .step ha.symm h
      have := shortestPath_adj st.wf ha hc
      rw [peerDist_eq st]
      unfold dist at *
      omega
    have hd1 : d = dist g r t := by
      have h1 := hmin q hq'
      rw [peerDist_eq st, hqt] at h1
      have h2 := hlow x hx
      omega
    rw [hsd, Option.some.injEq, peerDist_eq st]
    omega

theorem mem_away (st : Settled n g r) {s : Nat} (h : InStack g r s) {p : SPort} :
    p ∈ away n s ↔ p ∈ peerPorts n s ∧ (s = r ∨ dist g r s ≠ dist g r p.peerDp + 1) := by
  unfold away
  rw [List.mem_filter]
  simp only [decide_eq_true_eq]
  rw [mem_towards st h]
  constructor
  · rintro ⟨h1, h2⟩
    refine ⟨h1, ?_⟩
    by_contra hc
    rw [not_or] at hc
    exact h2 ⟨hc.1, h1, not_not.1 hc.2⟩
  · rintro ⟨h1, h2⟩
    refine ⟨h1, ?_⟩
    rintro ⟨h3, _, h4⟩
    rcases h2 with h2 | h2
    · exact h3 h2
    · exact h2 h4

theorem firstPeer_eq (st : Settled n g r) {s t : Nat} (h : InStack g r s) (hp : IsParent g r s t) :
    firstPeer n s = some t := by
  unfold firstPeer
  obtain ⟨l, hl⟩ := path_head st (parent_inStack st h hp)
  rw [pathToRoot_eq st, hp.1, hl]

/-- The chosen ports towards the root are the live ports to the parent. -/
theorem mem_chosenTowards (st : Settled n g r) {s : Nat} (h : InStack g r s) {p : SPort} :
    p ∈ chosenTowards n s ↔ p ∈ peerPorts n s ∧ IsParent g r s p.peerDp := by
  unfold chosenTowards
  rw [List.mem_filter, mem_towards st h]
  constructor
  · rintro ⟨⟨hne, hp, hd⟩, hf⟩
    obtain ⟨t, hpt, _, _⟩ := exists_parent st h hne
    rw [firstPeer_eq st h hpt] at hf
    simp only [beq_iff_eq, Option.some.injEq] at hf
    exact ⟨hp, hf ▸ hpt⟩
  · rintro ⟨hp, hpt⟩
    refine ⟨⟨hpt.ne_root st h, hp, hpt.dist⟩, ?_⟩
    rw [firstPeer_eq st h hpt]; simp

/-- The chosen port: the lowest-numbered live port to the parent. -/
theorem chosenPort_iff (st : Settled n g r) {s : Nat} (h : InStack g r s) {p : SPort} :
    chosenPort n s = some p ↔ p ∈ peerPorts n s ∧ IsParent g r s p.peerDp ∧
      ∀ q ∈ peerPorts n s, q.peerDp = p.peerDp → p.num ≤ q.num := by
  unfold chosenPort
  constructor
  · intro hc
    obtain ⟨h1, h2, h3⟩ := canonUp_head hc
    obtain ⟨h4, h5⟩ := (mem_chosenTowards st h).1 h1
    refine ⟨h4, h5, fun q hq hqe => h3 q ((mem_chosenTowards st h).2 ⟨hq, ?_⟩) (mem_peerPorts.1 hq).2⟩
    rw [hqe]; exact h5
  · rintro ⟨h1, h2, h3⟩
    obtain ⟨q, hq⟩ := canonUp_head_some ((mem_chosenTowards st h).2 ⟨h1, h2⟩) (mem_peerPorts.1 h1).2
    rw [hq]
    obtain ⟨k1, _, k3⟩ := canonUp_head hq
    obtain ⟨k4, k5⟩ := (mem_chosenTowards st h).1 k1
    have hpe : q.peerDp = p.peerDp := k5.unique st h h2
    have a := h3 q k4 hpe
    have b := k3 p ((mem_chosenTowards st h).2 ⟨h1, h2⟩) (mem_peerPorts.1 h1).2
    rw [st.inj (mem_peerPorts.1 k4).1 (mem_peerPorts.1 h1).1 (by omega)]

theorem exists_chosenPort (st : Settled n g r) {s : Nat} (h : InStack g r s) (hne : s ≠ r) :
    ∃ p, chosenPort n s = some p := by
  obtain ⟨t, hpt, _, _⟩ := exists_parent st h hne
  obtain ⟨q, hq, hqu, hqt⟩ := (st.links s t).1 hpt.2
  have hq' : q ∈ peerPorts n s := mem_peerPorts.2 ⟨hq, hqu⟩
  exact canonUp_head_some ((mem_chosenTowards st h).2 ⟨hq', by rw [hqt]; exact hpt⟩) hqu

/-- Active away ports are the live ports to the switches whose parent this is. -/
theorem mem_active_away (st : Settled n g r) {s : Nat} (h : InStack g r s) {p : SPort} :
    (p ∈ away n s ∧ p ∉ inactiveAway n s) ↔ p ∈ peerPorts n s ∧ IsParent g r p.peerDp s := by
  unfold inactiveAway
  rw [List.mem_filter, st.graph, st.root, mem_away st h]
  simp only [decide_eq_true_eq]
  constructor
  · rintro ⟨⟨h1, h2⟩, h3⟩
    refine ⟨h1, ?_⟩
    have hin : s ∈ shortestPath g p.peerDp r := by
      by_contra hc
      exact h3 ⟨⟨h1, h2⟩, hc⟩
    have ha := port_adj st h1
    exact (adj_in_path st (.step ha.symm h) ha.symm (port_ne st h1).symm).1 hin
  · rintro ⟨h1, h2⟩
    have ha := port_adj st h1
    have hc : InStack g r p.peerDp := .step ha.symm h
    have hd := h2.dist
    refine ⟨⟨h1, ?_⟩, ?_⟩
    · by_cases hr : s = r
      · exact .inl hr
      · right; omega
    · rintro ⟨_, hni⟩
      exact hni ((adj_in_path st hc ha.symm (port_ne st h1).symm).2 h2)

/-! ## Which ports accept a broadcast -/

/-- The remote end of a live port is live. -/
theorem remote_peerPorts (st : Settled n g r) {s : Nat} {p q : SPort} (hp : p ∈ peerPorts n s)
    (hq : remote n p = some q) : q ∈ peerPorts n p.peerDp ∧ q.num = p.peerNum ∧ q.peerDp = s ∧
      q.peerNum = p.num ∧ remote n q = some p := by
  obtain ⟨h1, h2⟩ := mem_peerPorts.1 hp
  obtain ⟨q', a, b, c, d, e, f, k⟩ := st.remote h1
  rw [hq] at a
  simp only [Option.some.injEq] at a
  subst a
  exact ⟨mem_peerPorts.2 ⟨b, by rw [f]; exact h2⟩, c, d, e, k⟩

/-- Towards the root a switch accepts broadcasts only on its chosen port. -/
theorem pruned_up (st : Settled n g r) {s : Nat} (h : InStack g r s) {p : SPort}
    (hp : p ∈ peerPorts n s) (hpar : IsParent g r s p.peerDp) :
    isPruned n s p = false ↔ chosenPort n s = some p := by
  unfold isPruned
  rw [if_pos ((mem_towards st h).2 ⟨hpar.ne_root st h, hp, hpar.dist⟩)]
  simp

/-- On a port to a child, a switch accepts broadcasts exactly when it is the remote end of the
port the child chose. -/
theorem pruned_down (st : Settled n g r) {s : Nat} (h : InStack g r s) {p q : SPort}
    (hp : p ∈ peerPorts n s) (hpar : IsParent g r p.peerDp s) (hq : remote n p = some q) :
    isPruned n s p = false ↔ chosenPort n p.peerDp = some q := by
  have hac := (mem_active_away st h).2 ⟨hp, hpar⟩
  have ha := port_adj st hp
  have hc : InStack g r p.peerDp := .step ha.symm h
  obtain ⟨q1, q2, q3, q4, q5⟩ := remote_peerPorts st hp hq
  have hnt : p ∉ towards n s := by
    rw [mem_towards st h]
    rintro ⟨_, _, hd⟩
    have := hpar.dist
    omega
  -- the remote ends of the away ports to the child are the child's live ports to us
  have hmem : ∀ x, x ∈ remoteAway n s p.peerDp ↔ x ∈ peerPorts n p.peerDp ∧ x.peerDp = s := by
    intro x
    unfold remoteAway
    rw [mem_canonUp, List.mem_filterMap]
    constructor
    · rintro ⟨⟨y, hy, hyx⟩, hu⟩
      obtain ⟨hy1, hy2⟩ := List.mem_filter.1 hy
      simp only [beq_iff_eq] at hy2
      have hyp : y ∈ peerPorts n s := ((mem_away st h).1 hy1).1
      obtain ⟨b1, _, b3, _, _⟩ := remote_peerPorts st hyp hyx
      rw [hy2] at b1
      exact ⟨b1, b3⟩
    · rintro ⟨h1, h2⟩
      obtain ⟨y, a1, a2, a3, a4, a5, a6, a7⟩ := st.remote (mem_peerPorts.1 h1).1
      rw [h2] at a2
      have hup := (mem_peerPorts.1 h1).2
      have hyp : y ∈ peerPorts n s := mem_peerPorts.2 ⟨a2, by rw [a6]; exact hup⟩
      refine ⟨⟨y, List.mem_filter.2 ⟨?_, by simpa using a4⟩, a7⟩, hup⟩
      refine ((mem_active_away st h).2 ⟨hyp, ?_⟩).1
      rw [a4]; exact hpar
  obtain ⟨z, hz⟩ : ∃ z, (remoteAway n s p.peerDp).head? = some z := by
    have hm := (hmem q).2 ⟨q1, q3⟩
    cases hs : remoteAway n s p.peerDp with
    | nil => rw [hs] at hm; simp at hm
    | cons a l => exact ⟨a, rfl⟩
  have hzmin : z ∈ peerPorts n p.peerDp ∧ z.peerDp = s ∧
      ∀ x, x ∈ peerPorts n p.peerDp → x.peerDp = s → z.num ≤ x.num := by
    have hz' := canonOrder_head (ps := (((away n s).filter (fun x : SPort => x.peerDp == p.peerDp)).filterMap
      (remote n)).filter (fun x => x.up)) (p := z) hz
    have hzm := (hmem z).1 (List.mem_of_mem_head? hz)
    refine ⟨hzm.1, hzm.2, fun x hx hxs => hz'.2 x ?_⟩
    have := (hmem x).2 ⟨hx, hxs⟩
    exact mem_canonOrder.1 this
  have hcz : chosenPort n p.peerDp = some z := by
    rw [chosenPort_iff st hc]
    refine ⟨hzmin.1, by rw [hzmin.2.1]; exact hpar, fun x hx hxe => hzmin.2.2 x hx ?_⟩
    rw [hxe]; exact hzmin.2.1
  unfold isPruned
  rw [if_neg hnt, if_pos hac.1, decide_eq_false_iff_not, hcz, Option.some.injEq]
  unfold prunedAway
  simp only [List.mem_flatMap, List.mem_map, List.mem_filterMap, List.mem_filter, decide_eq_true_eq]
  constructor
  · intro hno
    by_contra hne
    refine hno ⟨p.peerDp, ⟨p, hac.1, rfl⟩, q, ⟨(hmem q).2 ⟨q1, q3⟩, ?_⟩, q5⟩
    rw [hz]
    simp only [ne_eq, Option.some.injEq]
    exact fun h => hne h.symm
  · rintro rfl ⟨t, ⟨y, hy, rfl⟩, x, ⟨hx1, hx2⟩, hx3⟩
    -- the pruned port has this port as its remote end, so it belongs to the same child
    have hxt : y.peerDp = p.peerDp := by
      unfold remoteAway at hx1
      obtain ⟨hx4, _⟩ := mem_canonUp.1 hx1
      obtain ⟨w, hw, hwx⟩ := List.mem_filterMap.1 hx4
      obtain ⟨hw1, hw2⟩ := List.mem_filter.1 hw
      simp only [beq_iff_eq] at hw2
      obtain ⟨_, _, _, _, e5⟩ := remote_peerPorts st ((mem_away st h).1 hw1).1 hwx
      rw [hx3] at e5
      simp only [Option.some.injEq] at e5
      rw [← hw2, e5]
    rw [hxt] at hx1 hx2
    have hxq : x = z := by
      obtain ⟨k1, k2⟩ := (hmem x).1 hx1
      obtain ⟨l1, l2, l3, l4, l5⟩ := remote_peerPorts st k1 hx3
      refine st.inj (mem_peerPorts.1 k1).1 (mem_peerPorts.1 q1).1 ?_
      omega
    exact hx2 (by rw [hz, hxq])

/-! ## The property -/

/-- The switch sends broadcasts out of this stack port in some circumstance: it appears among the
outputs of the flood rule for some ingress. -/
def Sends (m : Mode) (n : Net) (s : Nat) (p : SPort) : Prop :=
  ∃ inp, Act.out p ∈ floodActs m n s inp ∨ (Act.inPort ∈ floodActs m n s inp ∧ inp = .stack p)

/-- A broadcast sent by switch `s` on port `p` gets into the neighbour. -/
def Carries (m : Mode) (n : Net) (s : Nat) (p : SPort) : Prop :=
  p ∈ n.ports s ∧ Sends m n s p ∧ ∃ q, remote n p = some q ∧ isPruned n p.peerDp q = false

/-- A port is never sent to unless it is up and leads to the parent or to a child. -/
theorem floodOuts_mem {ps excl : List SPort} {inp : Ingress} {p : SPort} :
    Act.out p ∈ floodOuts ps inp excl ↔ p ∈ ps ∧ inp ≠ .stack p ∧ p ∉ excl := by
  unfold floodOuts
  simp only [List.mem_map, List.mem_filter, decide_eq_true_eq, Act.out.injEq, exists_eq_right]

theorem not_inPort_floodOuts {ps excl : List SPort} {inp : Ingress} :
    Act.inPort ∉ floodOuts ps inp excl := by
  unfold floodOuts; simp

theorem isParent_root (st : Settled n g r) {t : Nat} (ha : Adj g r t) (hne : r ≠ t) : IsParent g r t r := by
  have hc : InStack g r t := .step ha.symm (.refl _ r)
  exact (adj_in_path st hc ha.symm hne.symm).1
    (shortestPath_spec st.wf (inStack_mem st hc) hc).1.dst_mem

theorem mem_toward_acts (st : Settled n g r) {s : Nat} (h : InStack g r s) {inp : Ingress} {p : SPort} :
    Act.out p ∈ towardActs n s inp ↔ (p ∈ peerPorts n s ∧ IsParent g r s p.peerDp) ∧ inp ≠ .stack p := by
  unfold towardActs
  rw [floodOuts_mem, mem_chosenTowards st h]
  simp

theorem mem_away_acts (st : Settled n g r) {s : Nat} (h : InStack g r s) {inp : Ingress} {p : SPort} :
    Act.out p ∈ awayActs n s inp ↔ (p ∈ peerPorts n s ∧ IsParent g r p.peerDp s) ∧
      ∀ q, inp = .stack q → q.peerDp ≠ p.peerDp := by
  unfold awayActs floodExclude
  rw [floodOuts_mem, List.mem_append, not_or]
  constructor
  · rintro ⟨h1, h2, h3, h4⟩
    have h5 := (mem_active_away st h).1 ⟨h1, h3⟩
    refine ⟨h5, ?_⟩
    rintro q rfl he
    exact h4 (List.mem_filter.2 ⟨(mem_peerPorts.1 h5.1).1, by simp [he]⟩)
  · rintro ⟨h1, h2⟩
    obtain ⟨h3, h4⟩ := (mem_active_away st h).2 h1
    refine ⟨h3, ?_, h4, ?_⟩
    · intro he
      exact h2 p he rfl
    · cases inp with
      | host e => simp
      | stack q =>
        intro hm
        obtain ⟨_, hm⟩ := List.mem_filter.1 hm
        simp only [beq_iff_eq] at hm
        exact h2 q rfl hm.symm

theorem not_out_flag {a b : Bool} {p : SPort} : Act.out p ∉ flagActs a b := by
  unfold flagActs; split <;> simp

theorem not_in_flag {a b : Bool} : Act.inPort ∉ flagActs a b := by
  unfold flagActs; split <;> simp

theorem not_in_toward {s : Nat} {inp : Ingress} : Act.inPort ∉ towardActs n s inp :=
  not_inPort_floodOuts

theorem not_in_away {s : Nat} {inp : Ingress} : Act.inPort ∉ awayActs n s inp :=
  not_inPort_floodOuts

/-- Every broadcast leaves a switch of the stack only towards its parent or a child. -/
theorem sends_imp (st : Settled n g r) {m : Mode} {s : Nat} (h : InStack g r s) {p : SPort}
    (hs : Sends m n s p) :
    p ∈ peerPorts n s ∧ (IsParent g r s p.peerDp ∨ IsParent g r p.peerDp s) := by
  obtain ⟨inp, hs⟩ := hs
  have ht : Act.out p ∈ towardActs n s inp → p ∈ peerPorts n s ∧
      (IsParent g r s p.peerDp ∨ IsParent g r p.peerDp s) := fun hm =>
    ⟨((mem_toward_acts st h).1 hm).1.1, .inl ((mem_toward_acts st h).1 hm).1.2⟩
  have ha : Act.out p ∈ awayActs n s inp → p ∈ peerPorts n s ∧
      (IsParent g r s p.peerDp ∨ IsParent g r p.peerDp s) := fun hm =>
    ⟨((mem_away_acts st h).1 hm).1.1, .inr ((mem_away_acts st h).1 hm).1.2⟩
  have hin : s = r → p ∈ away n s → p ∈ peerPorts n s ∧
      (IsParent g r s p.peerDp ∨ IsParent g r p.peerDp s) := by
    intro hsr hm
    have hp := ((mem_away st h).1 hm).1
    refine ⟨hp, .inr ?_⟩
    subst hsr
    exact isParent_root st (port_adj st hp) (port_ne st hp)
  unfold floodActs at hs
  split at hs
  · unfold reflectActs at hs
    rw [isRoot_eq st] at hs
    by_cases hr : s = r
    · rw [if_pos (by simpa using hr)] at hs
      cases inp with
      | host e =>
        simp only [List.mem_append, List.mem_singleton, reduceCtorEq, or_false, not_out_flag,
          not_in_flag, not_in_away, false_or, and_false] at hs
        exact ha hs
      | stack q =>
        dsimp only at hs
        split at hs
        · rename_i hq
          simp only [List.mem_append, List.mem_singleton, reduceCtorEq, or_false, not_out_flag,
            not_in_flag, not_in_away, false_or, true_and, Ingress.stack.injEq] at hs
          rcases hs with hs | rfl
          · exact ha hs
          · exact hin hr hq
        · simp only [List.mem_append, List.mem_singleton, reduceCtorEq, or_false, not_out_flag,
            not_in_flag, not_in_away, false_or, false_and] at hs
          exact ha hs
    · rw [if_neg (by simpa using hr)] at hs
      cases inp with
      | host e =>
        simp only [List.mem_append, not_out_flag, not_in_flag, not_in_toward, false_or,
          reduceCtorEq, and_false, or_false] at hs
        exact ht hs
      | stack q =>
        dsimp only at hs
        split at hs
        · simp only [not_in_toward, false_and, or_false] at hs
          exact ht hs
        · split at hs
          · split at hs <;>
            · simp only [List.mem_append, List.mem_singleton, reduceCtorEq, or_false, not_out_flag,
                not_in_flag, not_in_away, false_or, false_and] at hs
              exact ha hs
          · simp only [List.mem_append, not_out_flag, not_in_flag, not_in_toward, false_or,
              false_and, or_false] at hs
            exact ht hs
  · unfold noReflectActs at hs
    cases inp with
    | host e =>
      simp only [List.mem_append, List.mem_singleton, reduceCtorEq, or_false, not_out_flag,
        not_in_flag, not_in_away, not_in_toward, false_or, and_false] at hs
      exact hs.elim ht ha
    | stack q =>
      simp only [List.mem_append, List.mem_singleton, reduceCtorEq, or_false, List.not_mem_nil,
        not_in_away, not_in_toward, false_or, false_and] at hs
      exact hs.elim ht ha

theorem sends_up (st : Settled n g r) {m : Mode} {s : Nat} (h : InStack g r s) {p : SPort}
    (hp : p ∈ peerPorts n s) (hpar : IsParent g r s p.peerDp) : Sends m n s p := by
  refine ⟨.host false, .inl ?_⟩
  have hm : Act.out p ∈ towardActs n s (.host false) := (mem_toward_acts st h).2 ⟨⟨hp, hpar⟩, by simp⟩
  unfold floodActs
  split
  · unfold reflectActs
    rw [isRoot_eq st, if_neg (by simpa using hpar.ne_root st h)]
    simp [hm]
  · unfold noReflectActs
    simp [hm]

theorem sends_down (st : Settled n g r) {m : Mode} {s : Nat} (h : InStack g r s) {p : SPort}
    (hp : p ∈ peerPorts n s) (hpar : IsParent g r p.peerDp s) : Sends m n s p := by
  have hm : Act.out p ∈ awayActs n s (.host false) :=
    (mem_away_acts st h).2 ⟨⟨hp, hpar⟩, by simp⟩
  by_cases hr : s = r
  · refine ⟨.host false, .inl ?_⟩
    unfold floodActs
    split
    · unfold reflectActs
      rw [isRoot_eq st, if_pos (by simpa using hr)]
      simp [hm]
    · unfold noReflectActs
      simp [hm]
  · by_cases hm' : m.reflect = true
    · obtain ⟨c, hc⟩ := exists_chosenPort st h hr
      obtain ⟨c1, c2, _⟩ := (chosenPort_iff st h).1 hc
      refine ⟨.stack c, .inl ?_⟩
      have hca : c ∉ away n s := by
        rw [mem_away st h]
        rintro ⟨_, h1 | h1⟩
        · exact hr h1
        · exact h1 c2.dist
      have hct : c ∈ towards n s := (mem_towards st h).2 ⟨hr, c1, c2.dist⟩
      have hm : Act.out p ∈ awayActs n s (.stack c) := by
        refine (mem_away_acts st h).2 ⟨⟨hp, hpar⟩, ?_⟩
        rintro q hq he
        simp only [Ingress.stack.injEq] at hq
        subst hq
        have h1 := c2.dist
        have h2 := hpar.dist
        rw [he] at h1
        omega
      unfold floodActs
      rw [if_pos hm']
      unfold reflectActs
      rw [isRoot_eq st, if_neg (by simpa using hr)]
      dsimp only
      rw [if_neg hca, if_pos hct]
      split <;> simp [hm]
    · refine ⟨.host false, .inl ?_⟩
      unfold floodActs
      rw [if_neg hm']
      unfold noReflectActs
      simp [hm]

/-- The links that carry broadcasts are each switch's chosen uplink, seen from either end. -/
theorem carries_iff (st : Settled n g r) {m : Mode} {s : Nat} (h : InStack g r s) {p : SPort} :
    Carries m n s p ↔ chosenPort n s = some p ∨
      (p ∈ peerPorts n s ∧ ∃ q, remote n p = some q ∧ chosenPort n p.peerDp = some q) := by
  constructor
  · rintro ⟨hp, hs, q, hq, hpr⟩
    obtain ⟨h1, h2⟩ := sends_imp st h hs
    have ha := port_adj st h1
    have hc : InStack g r p.peerDp := .step ha.symm h
    obtain ⟨q1, q2, q3, q4, q5⟩ := remote_peerPorts st h1 hq
    rcases h2 with h2 | h2
    · left
      have := (pruned_down st hc q1 (by rw [q3]; exact h2) q5).1 hpr
      rwa [q3] at this
    · right
      exact ⟨h1, q, hq, (pruned_up st hc q1 (by rw [q3]; exact h2)).1 hpr⟩
  · rintro (hch | ⟨h1, q, hq, hch⟩)
    · obtain ⟨h1, h2, h3⟩ := (chosenPort_iff st h).1 hch
      have ha := port_adj st h1
      have hc : InStack g r p.peerDp := .step ha.symm h
      obtain ⟨q, hq, _⟩ := st.remote (mem_peerPorts.1 h1).1
      obtain ⟨q1, q2, q3, q4, q5⟩ := remote_peerPorts st h1 hq
      refine ⟨(mem_peerPorts.1 h1).1, sends_up st h h1 h2, q, hq, ?_⟩
      exact (pruned_down st hc q1 (by rw [q3]; exact h2) q5).2 (by rw [q3]; exact hch)
    · have ha := port_adj st h1
      have hc : InStack g r p.peerDp := .step ha.symm h
      obtain ⟨q1, q2, q3, q4, q5⟩ := remote_peerPorts st h1 hq
      obtain ⟨_, k2, _⟩ := (chosenPort_iff st hc).1 hch
      rw [q3] at k2
      refine ⟨(mem_peerPorts.1 h1).1, sends_down st h h1 k2, q, hq, ?_⟩
      exact (pruned_up st hc q1 (by rw [q3]; exact k2)).2 hch

/-! ## The property theorems -/

/-- `t` is strictly fewer links from the root than `s`. -/
def Closer (g : Graph) (r t s : Nat) : Prop :=
  ∃ w, Walk (Adj g) t r w ∧ ∀ w', Walk (Adj g) s r w' → w.length < w'.length

theorem closer_iff (st : Settled n g r) {s t : Nat} (hs : InStack g r s) (ht : InStack g r t) :
    Closer g r t s ↔ dist g r t < dist g r s := by
  obtain ⟨a1, a2⟩ := shortestPath_spec st.wf (inStack_mem st ht) ht
  obtain ⟨b1, b2⟩ := shortestPath_spec st.wf (inStack_mem st hs) hs
  constructor
  · rintro ⟨w, hw, hlt⟩
    have h1 := (a2 w hw).1
    have h2 := hlt _ b1
    unfold dist; omega
  · intro hd
    refine ⟨_, a1, fun w' hw' => ?_⟩
    have h1 := (b2 w' hw').1
    unfold dist at hd; omega

/-- C26: every switch of a settled stack other than the root has exactly one port that leads
closer to the root and carries broadcasts. -/
theorem one_uplink (st : Settled n g r) (m : Mode) (s : Nat) (h : Connected (Adj g) s r)
    (hne : s ≠ r) : ∃ p, (Carries m n s p ∧ Closer g r p.peerDp s) ∧
      ∀ q, Carries m n s q ∧ Closer g r q.peerDp s → q = p := by
  obtain ⟨p, hp⟩ := exists_chosenPort st h hne
  have hpp := (chosenPort_iff st h).1 hp
  have conn : ∀ {x : SPort}, x ∈ peerPorts n s → InStack g r x.peerDp := fun hx =>
    .step (port_adj st hx).symm h
  refine ⟨p, ⟨(carries_iff st h).2 (.inl hp), (closer_iff st h (conn hpp.1)).2 ?_⟩, ?_⟩
  · have := hpp.2.1.dist; omega
  · rintro q ⟨hq, hcl⟩
    rcases (carries_iff st h).1 hq with hc | ⟨h1, x, hx, hc⟩
    · rw [hp] at hc; simpa using hc.symm
    · exfalso
      have hcx := conn h1
      obtain ⟨_, k2, _⟩ := (chosenPort_iff st hcx).1 hc
      obtain ⟨_, _, q3, _⟩ := remote_peerPorts st h1 hx
      rw [q3] at k2
      have := k2.dist
      have := (closer_iff st h hcx).1 hcl
      omega

/-- C26: both ends of a link agree on whether it carries broadcasts. -/
theorem ends_agree (st : Settled n g r) (m : Mode) (s : Nat) (h : Connected (Adj g) s r)
    (p q : SPort) (hp : p ∈ n.ports s) (hup : p.up = true) (hq : remote n p = some q) :
    Carries m n s p ↔ Carries m n p.peerDp q := by
  have h1 : p ∈ peerPorts n s := mem_peerPorts.2 ⟨hp, hup⟩
  have hc : InStack g r p.peerDp := .step (port_adj st h1).symm h
  obtain ⟨q1, q2, q3, q4, q5⟩ := remote_peerPorts st h1 hq
  rw [carries_iff st h, carries_iff st hc]
  constructor
  · rintro (hx | ⟨_, x, hx, hy⟩)
    · exact .inr ⟨q1, p, q5, by rw [q3]; exact hx⟩
    · rw [hq] at hx; simp only [Option.some.injEq] at hx; subst hx
      exact .inl hy
  · rintro (hx | ⟨_, x, hx, hy⟩)
    · exact .inr ⟨h1, q, hq, hx⟩
    · rw [q5] at hx; simp only [Option.some.injEq] at hx; subst hx
      rw [q3] at hy
      exact .inl hy

/-- Every carrying link joins a switch with its parent, over the switch's chosen port. -/
theorem carries_parent (st : Settled n g r) {m : Mode} {s : Nat} (h : InStack g r s) {p : SPort}
    (hc : Carries m n s p) : p ∈ peerPorts n s ∧ InStack g r p.peerDp ∧
      ((dist g r s = dist g r p.peerDp + 1 ∧ chosenPort n s = some p) ∨
       (dist g r p.peerDp = dist g r s + 1 ∧ ∃ q, remote n p = some q ∧ chosenPort n p.peerDp = some q)) := by
  rcases (carries_iff st h).1 hc with hx | ⟨h1, q, hq, hy⟩
  · obtain ⟨k1, k2, _⟩ := (chosenPort_iff st h).1 hx
    exact ⟨k1, .step (port_adj st k1).symm h, .inl ⟨k2.dist, hx⟩⟩
  · have hi : InStack g r p.peerDp := .step (port_adj st h1).symm h
    obtain ⟨_, k2, _⟩ := (chosenPort_iff st hi).1 hy
    obtain ⟨_, _, q3, _⟩ := remote_peerPorts st h1 hq
    rw [q3] at k2
    exact ⟨h1, hi, .inr ⟨k2.dist, q, hq, hy⟩⟩

/-- A cycle of links: a closed tour of `k` hops over ports `pt 0, ..., pt (k-1)` through switches
`sw 0, ..., sw k = sw 0`, continued periodically. -/
structure Tour (m : Mode) (n : Net) (k : Nat) (sw : Nat → Nat) (pt : Nat → SPort) : Prop where
  pos : 0 < k
  hop : ∀ i, Carries m n (sw i) (pt i) ∧ (pt i).peerDp = sw (i + 1)
  closed : ∀ i, sw (i + k) = sw i ∧ pt (i + k) = pt i

/-- Some index within a period is at least as far out as all others. -/
theorem exists_max (f : Nat → Nat) (k : Nat) (hk : 0 < k) :
    ∃ i, i < k ∧ ∀ j, j < k → f j ≤ f i := by
  induction k with
  | zero => omega
  | succ k ih =>
    by_cases h0 : k = 0
    · subst h0
      refine ⟨0, by omega, fun j hj => ?_⟩
      have : j = 0 := by omega
      rw [this]
      exact Nat.le_refl _
    · obtain ⟨i, hi, hm⟩ := ih (by omega)
      by_cases hle : f k ≤ f i
      · refine ⟨i, by omega, fun j hj => ?_⟩
        rcases Nat.lt_succ_iff_lt_or_eq.1 hj with h | rfl
        · exact hm j h
        · exact hle
      · refine ⟨k, by omega, fun j hj => ?_⟩
        rcases Nat.lt_succ_iff_lt_or_eq.1 hj with h | rfl
        · have := hm j h; omega
        · exact Nat.le_refl _

/-- C26: no cycle of carrying links: every closed tour goes straight back over a link it has just
crossed. -/
theorem no_cycle (st : Settled n g r) (m : Mode) (k : Nat) (sw : Nat → Nat) (pt : Nat → SPort)
    (h0 : Connected (Adj g) (sw 0) r) (ht : Tour m n k sw pt) :
    ∃ i, remote n (pt i) = some (pt (i + 1)) := by
  have hin : ∀ i, InStack g r (sw i) := by
    intro i
    induction i with
    | zero => exact h0
    | succ i ih =>
      rw [← (ht.hop i).2]
      exact (carries_parent st ih (ht.hop i).1).2.1
  obtain ⟨j, hj, hmax⟩ := exists_max (fun i => dist g r (sw i)) k ht.pos
  -- the tour enters and leaves the farthest switch over its one uplink
  have hmaxall : ∀ i, dist g r (sw i) ≤ dist g r (sw j) := by
    intro i
    have hper : ∀ c a, sw (a + c * k) = sw a := by
      intro c
      induction c with
      | zero => intro a; simp
      | succ c ih => intro a; rw [Nat.succ_mul, ← Nat.add_assoc, (ht.closed _).1, ih]
    have hmod : sw i = sw (i % k) := by
      have := hper (i / k) (i % k)
      rw [show i % k + i / k * k = i by rw [Nat.mul_comm]; exact Nat.mod_add_div i k] at this
      exact this
    rw [hmod]
    exact hmax _ (Nat.mod_lt _ ht.pos)
  have hk := ht.pos
  refine ⟨j + k - 1, ?_⟩
  have e1 : j + k - 1 + 1 = j + k := by omega
  rw [e1, (ht.closed j).2]
  have hpe : (pt (j + k - 1)).peerDp = sw j := by
    rw [(ht.hop _).2, e1, (ht.closed j).1]
  obtain ⟨a1, a2, a3⟩ := carries_parent st (hin (j + k - 1)) (ht.hop (j + k - 1)).1
  obtain ⟨b1, b2, b3⟩ := carries_parent st (hin j) (ht.hop j).1
  have m1 := hmaxall (j + k - 1)
  have m2 := hmaxall (j + 1)
  rw [← (ht.hop j).2] at m2
  rw [hpe] at a3
  have hb : chosenPort n (sw j) = some (pt j) := by
    rcases b3 with ⟨_, h⟩ | ⟨h, _⟩
    · exact h
    · omega
  rcases a3 with ⟨h, _⟩ | ⟨_, q, hq, hc⟩
  · omega
  · rw [hb] at hc
    simp only [Option.some.injEq] at hc
    rw [hq, hc]

/-- C26: the carrying links join every switch of the stack to the root. -/
theorem carrying_spans (st : Settled n g r) (m : Mode) : ∀ (k : Nat) (s : Nat), dist g r s = k →
    Connected (Adj g) s r → Connected (fun u v => ∃ p, Carries m n u p ∧ p.peerDp = v) s r := by
  intro k
  induction k with
  | zero => intro s hk h; have := dist_pos st h; omega
  | succ k ih =>
    intro s hk h
    by_cases hr : s = r
    · subst hr; exact .refl _ _
    · obtain ⟨p, hp⟩ := exists_chosenPort st h hr
      obtain ⟨h1, h2, _⟩ := (chosenPort_iff st h).1 hp
      have hi := parent_inStack st h h2
      have hd := h2.dist
      exact .step ⟨p, (carries_iff st h).2 (.inl hp), rfl⟩ (ih _ (by omega) hi)

end

/-- C26: a stack link that is not up is pruned, whatever the topology: broadcasts that still arrive
on it are dropped. -/
theorem down_link_pruned (n : Net) (s : Nat) (p : SPort) (h : p.up = false) :
    isPruned n s p = true := by
  have h0 : p ∉ peerPorts n s := fun hp => by
    rw [mem_peerPorts, h] at hp; exact absurd hp.2 (by simp)
  have h1 : p ∉ towards n s := fun hp => by
    unfold towards at hp
    split at hp
    · simp at hp
    · exact h0 (List.mem_filter.1 hp).1
  have h2 : p ∉ away n s := fun hp => h0 (List.mem_filter.1 hp).1
  unfold isPruned
  rw [if_neg h1, if_neg h2]

end Faucet.Stack
