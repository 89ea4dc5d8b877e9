import Verif.Stack.Tree

/-!
# Following next hops across a stack (C25)
-/

namespace Faucet.Stack

/-- The switches a packet visits when every switch hands it to the port `next` gives. -/
inductive Visits (next : Nat → Option SPort) (d : Nat) : Nat → List Nat → Prop
  | here : Visits next d d [d]
  | hop {s : Nat} {p : SPort} {w : List Nat} : s ≠ d → next s = some p →
      Visits next d p.peerDp w → Visits next d s (s :: w)

/-- There is only one way to go. -/
theorem Visits.unique {next : Nat → Option SPort} {d s : Nat} {v w : List Nat}
    (h1 : Visits next d s v) (h2 : Visits next d s w) : v = w := by
  induction h1 generalizing w with
  | here =>
    cases h2 with
    | here => rfl
    | hop hne _ _ => exact absurd rfl hne
  | hop hne hp _ ih =>
    cases h2 with
    | here => exact absurd rfl hne
    | hop _ hp' h' =>
      rw [hp] at hp'
      simp only [Option.some.injEq] at hp'
      subst hp'
      rw [ih h']

/-- A stack whose switches share one topology graph, every edge of which has a running port at
both ends. -/
structure Shared (n : Net) (g : Graph) : Prop where
  wf : Wf g
  graph : ∀ s, n.graph s = g
  running : ∀ u v, Adj g u v → ∃ p ∈ n.ports u, p.running = true ∧ p.peerDp = v

theorem canonOrder_head_some {ps : List SPort} {q : SPort} (hq : q ∈ ps) :
    ∃ p, (canonOrder ps).head? = some p := by
  have : q ∈ canonOrder ps := mem_canonOrder.2 hq
  cases hs : canonOrder ps with
  | nil => rw [hs] at this; simp at this
  | cons a l => exact ⟨a, rfl⟩

/-- The port used is a running port to the next switch of the path. -/
theorem shortestPathPort_spec {n : Net} {g : Graph} (sh : Shared n g) {s d : Nat} (hs : s ∈ g.nodes)
    (hc : Connected (Adj g) s d) (hne : s ≠ d) :
    ∃ p, shortestPathPort n s d = some p ∧ p ∈ n.ports s ∧ p.running = true ∧ Adj g s p.peerDp ∧
      Connected (Adj g) p.peerDp d ∧ shortestPath g s d = s :: shortestPath g p.peerDp d := by
  obtain ⟨v, h1, h2, h3, h4⟩ := shortestPath_cons sh.wf hs hc hne
  obtain ⟨t, ht⟩ := (shortestPath_spec sh.wf h2 h3).1.head
  obtain ⟨q, hq, hqr, hqv⟩ := sh.running s v h1
  obtain ⟨p, hp⟩ := canonOrder_head_some (q := q)
    (ps := (n.ports s).filter (fun p => p.running && p.peerDp == v))
    (List.mem_filter.2 ⟨hq, by simp [hqr, hqv]⟩)
  have hp' := (canonOrder_head hp).1
  obtain ⟨hp1, hp2⟩ := List.mem_filter.1 hp'
  simp only [Bool.and_eq_true, beq_iff_eq] at hp2
  refine ⟨p, ?_, hp1, hp2.1, by rw [hp2.2]; exact h1, by rw [hp2.2]; exact h3, by rw [hp2.2]; exact h4⟩
  unfold shortestPathPort
  rw [sh.graph, h4, ht]
  exact hp

/-- C25: following at every switch the port it uses towards a destination, a packet visits no
switch twice and reaches the destination, whenever links join the two. -/
theorem next_hops_arrive {n : Net} {g : Graph} (sh : Shared n g) (s d : Nat) (hs : s ∈ g.nodes)
    (hc : Connected (Adj g) s d) :
    ∃ w, Visits (fun u => shortestPathPort n u d) d s w ∧ w.Nodup ∧
      ∀ w', Walk (Adj g) s d w' → w.length ≤ w'.length := by
  have key : ∀ (k : Nat) (s : Nat), (shortestPath g s d).length = k → s ∈ g.nodes →
      Connected (Adj g) s d → Visits (fun u => shortestPathPort n u d) d s (shortestPath g s d) := by
    intro k
    induction k with
    | zero =>
      intro s hk hs hc
      exact absurd (List.eq_nil_of_length_eq_zero hk) ((shortestPath_ne_nil_iff sh.wf hs).2 hc)
    | succ k ih =>
      intro s hk hs hc
      by_cases hsd : s = d
      · subst hsd
        rw [shortestPath_self sh.wf hs]
        exact .here
      · obtain ⟨p, hp, _, _, ha, hc', he⟩ := shortestPathPort_spec sh hs hc hsd
        rw [he] at hk ⊢
        exact .hop hsd hp (ih _ (by simpa using hk) (ha.mem sh.wf).2 hc')
  obtain ⟨h1, h2⟩ := shortestPath_spec sh.wf hs hc
  refine ⟨shortestPath g s d, key _ s rfl hs hc, ?_, fun w' hw' => (h2 w' hw').1⟩
  obtain ⟨w', k1, k2, k3⟩ := h1.shorten _ (Nat.le_refl _)
  -- a shortest walk repeats nothing: otherwise cutting the repetition would make it shorter
  have hnd : ∀ (k : Nat) (s : Nat), (shortestPath g s d).length = k → s ∈ g.nodes →
      Connected (Adj g) s d → (shortestPath g s d).Nodup := by
    intro k
    induction k with
    | zero =>
      intro s hk hs hc
      exact absurd (List.eq_nil_of_length_eq_zero hk) ((shortestPath_ne_nil_iff sh.wf hs).2 hc)
    | succ k ih =>
      intro s hk hs hc
      by_cases hsd : s = d
      · subst hsd; rw [shortestPath_self sh.wf hs]; simp
      · obtain ⟨v, a1, a2, a3, a4⟩ := shortestPath_cons sh.wf hs hc hsd
        rw [a4] at hk ⊢
        refine List.nodup_cons.2 ⟨?_, ih v (by simpa using hk) a2 a3⟩
        intro hm
        obtain ⟨a, b, hab, hb⟩ := (shortestPath_spec sh.wf a2 a3).1.cut hm
        have b1 := ((shortestPath_spec sh.wf hs hc).2 b hb).1
        have b2 : b.length ≤ (shortestPath g v d).length := by rw [hab]; simp
        rw [a4] at b1
        simp only [List.length_cons] at b1
        omega
  exact hnd _ s rfl hs hc

/-- C25: towards a destination that no links reach, no port is used. -/
theorem unreachable_no_port {n : Net} {g : Graph} (sh : Shared n g) (s d : Nat)
    (hc : ¬ Connected (Adj g) s d) : shortestPathPort n s d = none := by
  unfold shortestPathPort
  rw [sh.graph, shortestPath_none sh.wf hc]

/-! ## Going by way of the root -/

/-- The switch before `s` on a path, `path[path.index(s) - 1]` (valve_stack.py 188): Python's
index -1, the last switch, if `s` comes first. -/
def before (path : List Nat) (s : Nat) : Nat :=
  if path.idxOf s = 0 then path.getLastD 0 else path.getD (path.idxOf s - 1) 0

/-- `relative_port_towards(dp)`, valve_stack.py 169-194.  `away_ports` is a set, so which of several
fitting ports the loop meets first is not determined by the code; the least number is taken here,
and `before_port_unique` shows there is only one. -/
def relativePort (n : Net) (s d : Nat) : Option SPort :=
  if (pathToRoot n s).isEmpty then shortestPathPort n s d
  else if s = d then shortestPathPort n s d
  else if s ∈ shortestPath (n.graph s) d (n.root s) then
    (away n s).find? (fun p =>
      p.peerDp == before (shortestPath (n.graph s) d (n.root s)) s && !isPruned n s p)
  else chosenPort n s

theorem before_spec {a : List Nat} {c s : Nat} {b : List Nat} (hn : (a ++ c :: s :: b).Nodup) :
    before (a ++ c :: s :: b) s = c := by
  have h1 : s ∉ a ++ [c] := by
    have : (a ++ c :: s :: b) = (a ++ [c]) ++ s :: b := by simp
    rw [this] at hn
    intro hm
    exact (List.nodup_append.1 hn).2.2 s hm s (by simp) rfl
  have h2 : (a ++ c :: s :: b).idxOf s = a.length + 1 := by
    have : (a ++ c :: s :: b) = (a ++ [c]) ++ s :: b := by simp
    rw [this, List.idxOf_append_of_notMem h1]
    simp
  unfold before
  rw [h2]
  simp

section
variable {n : Net} {g : Graph} {r : Nat}

/-- The path of a switch beyond `s` passes a child of `s` just before `s`. -/
theorem path_split (st : Settled n g r) {s : Nat} : ∀ (k : Nat) {t : Nat}, dist g r t = k →
    InStack g r t → s ∈ shortestPath g t r → t ≠ s →
    ∃ a c b, shortestPath g t r = a ++ c :: s :: b ∧ IsParent g r c s ∧ InStack g r c := by
  intro k
  induction k with
  | zero => intro t hk h; have := dist_pos st h; omega
  | succ k ih =>
    intro t hk h hs hne
    by_cases hr : t = r
    · subst hr
      rw [shortestPath_self st.wf st.rootIn] at hs
      simp at hs
      exact absurd hs.symm hne
    · obtain ⟨u, hu, hui, hd⟩ := exists_parent st h hr
      rw [hu.1] at hs
      rcases List.mem_cons.1 hs with rfl | hs
      · exact absurd rfl hne
      · by_cases hus : u = s
        · subst hus
          obtain ⟨l, hl⟩ := path_head st hui
          exact ⟨[], t, l, by rw [hu.1, hl]; rfl, hu, h⟩
        · obtain ⟨a, c, b, h1, h2, h3⟩ := ih (by omega) hui hs hus
          exact ⟨t :: a, c, b, by rw [hu.1, h1]; rfl, h2, h3⟩

theorem path_nodup (st : Settled n g r) : ∀ (k : Nat) {t : Nat}, dist g r t = k → InStack g r t →
    (shortestPath g t r).Nodup := by
  intro k
  induction k with
  | zero => intro t hk h; have := dist_pos st h; omega
  | succ k ih =>
    intro t hk h
    by_cases hr : t = r
    · subst hr; rw [shortestPath_self st.wf st.rootIn]; simp
    · obtain ⟨u, hu, hui, hd⟩ := exists_parent st h hr
      rw [hu.1]
      refine List.nodup_cons.2 ⟨?_, ih (by omega) hui⟩
      intro hm
      rcases (path_dist st _ hui rfl t hm).2 with rfl | h' <;> omega

/-- Towards a switch beyond it, a switch has exactly one port that fits. -/
theorem before_port_unique (st : Settled n g r) {s c : Nat} (hc : InStack g r c)
    (hp : IsParent g r c s) :
    ∃ p, p ∈ away n s ∧ p.peerDp = c ∧ isPruned n s p = false ∧
      ∀ q ∈ away n s, q.peerDp = c → isPruned n s q = false → q = p := by
  have hs := parent_inStack st hc hp
  obtain ⟨x, hx⟩ := exists_chosenPort st hc (hp.ne_root st hc)
  obtain ⟨k1, k2, _⟩ := (chosenPort_iff st hc).1 hx
  have hxs : x.peerDp = s := k2.unique st hc hp
  obtain ⟨p, hpr, _⟩ := st.remote (mem_peerPorts.1 k1).1
  obtain ⟨p1, p2, p3, p4, p5⟩ := remote_peerPorts st k1 hpr
  rw [hxs] at p1
  refine ⟨p, ((mem_active_away st hs).2 ⟨p1, by rw [p3]; exact hp⟩).1, p3, ?_, ?_⟩
  · exact (pruned_down st hs p1 (by rw [p3]; exact hp) p5).2 (by rw [p3]; exact hx)
  · intro q hq hqc hqp
    have hq' := ((mem_away st hs).1 hq).1
    obtain ⟨y, hy, _⟩ := st.remote (mem_peerPorts.1 hq').1
    have := (pruned_down st hs hq' (by rw [hqc]; exact hp) hy).1 hqp
    rw [hqc, hx] at this
    simp only [Option.some.injEq] at this
    subst this
    obtain ⟨_, _, _, _, e5⟩ := remote_peerPorts st hq' hy
    rw [e5] at hpr
    simpa using hpr

/-- C25, by way of the root: on a settled stack, following at every switch the port that
root-relative learning uses towards a destination, a packet visits no switch twice and reaches it,
over links that carry broadcasts. -/
theorem relative_hops_arrive (st : Settled n g r) (m : Mode) (s d : Nat)
    (hs : Connected (Adj g) s r) (hd : Connected (Adj g) d r) :
    ∃ w, Visits (fun u => relativePort n u d) d s w ∧ w.Nodup ∧
      ∀ u ∈ w, u ≠ d → ∃ p, relativePort n u d = some p ∧ Carries m n u p := by
  -- the port used on the way down and on the way up
  have down : ∀ {u : Nat}, InStack g r u → u ≠ d → u ∈ shortestPath g d r →
      ∃ p, relativePort n u d = some p ∧ Carries m n u p ∧ IsParent g r p.peerDp u ∧
        p.peerDp ∈ shortestPath g d r := by
    intro u hu hne hmem
    obtain ⟨a, c, b, hpath, hcu, hci⟩ := path_split st _ rfl hd hmem (fun h => hne h.symm)
    have hb : before (shortestPath g d r) u = c := by
      have hn := path_nodup st _ rfl hd
      rw [hpath] at hn ⊢
      exact before_spec hn
    obtain ⟨p, q1, q2, q3, q4⟩ := before_port_unique st hci hcu
    obtain ⟨l, hl⟩ := path_head st hu
    have hrel : relativePort n u d = some p := by
      unfold relativePort
      rw [pathToRoot_eq st, st.graph, st.root, hl, if_neg (by simp), if_neg hne, if_pos hmem, hb]
      have hsome : ((away n u).find? (fun x => x.peerDp == c && !isPruned n u x)).isSome := by
        rw [List.find?_isSome]
        exact ⟨p, q1, by simp [q2, q3]⟩
      obtain ⟨y, hy⟩ := Option.isSome_iff_exists.1 hsome
      rw [hy]
      have h1 := List.find?_some hy
      simp only [Bool.and_eq_true, beq_iff_eq, Bool.not_eq_true'] at h1
      rw [q4 y (List.mem_of_find?_eq_some hy) h1.1 h1.2]
    refine ⟨p, hrel, ?_, by rw [q2]; exact hcu, ?_⟩
    · have hpp := ((mem_away st hu).1 q1).1
      obtain ⟨y, hy, _⟩ := st.remote (mem_peerPorts.1 hpp).1
      exact (carries_iff st hu).2 (.inr ⟨hpp, y, hy,
        (pruned_down st hu hpp (by rw [q2]; exact hcu) hy).1 q3⟩)
    · rw [q2, hpath]; simp
  have up : ∀ {u : Nat}, InStack g r u → u ∉ shortestPath g d r →
      ∃ p, relativePort n u d = some p ∧ Carries m n u p ∧ IsParent g r u p.peerDp := by
    intro u hu hmem
    have hur : u ≠ r := by
      rintro rfl
      exact hmem (shortestPath_spec st.wf (inStack_mem st hd) hd).1.dst_mem
    have hne : u ≠ d := by
      rintro rfl
      obtain ⟨l, hl⟩ := path_head st hd
      exact hmem (by rw [hl]; simp)
    obtain ⟨p, hp⟩ := exists_chosenPort st hu hur
    obtain ⟨l, hl⟩ := path_head st hu
    refine ⟨p, ?_, (carries_iff st hu).2 (.inl hp), ((chosenPort_iff st hu).1 hp).2.1⟩
    unfold relativePort
    rw [pathToRoot_eq st, st.graph, st.root, hl, if_neg (by simp), if_neg hne, if_neg hmem]
    exact hp
  -- on the way down the distance to the root grows up to that of the destination
  have dphase : ∀ (k : Nat) (u : Nat), InStack g r u → u ∈ shortestPath g d r →
      dist g r u + k = dist g r d →
      ∃ w, Visits (fun u => relativePort n u d) d u w ∧ w.Nodup ∧
        (∀ x ∈ w, x ∈ shortestPath g d r ∧ dist g r u ≤ dist g r x) ∧
        ∀ x ∈ w, x ≠ d → ∃ p, relativePort n x d = some p ∧ Carries m n x p := by
    intro k
    induction k with
    | zero =>
      intro u hu hmem hk
      have : u = d := by
        rcases (path_dist st _ hd rfl u hmem).2 with h | h
        · exact h
        · omega
      subst this
      exact ⟨[u], .here, by simp, by simpa using hmem, fun x hx hxd => by simp at hx; exact absurd hx hxd⟩
    | succ k ih =>
      intro u hu hmem hk
      have hne : u ≠ d := by rintro rfl; omega
      obtain ⟨p, p1, p2, p3, p4⟩ := down hu hne hmem
      have hdist := p3.dist
      have hpi := (path_dist st _ hd rfl _ p4).1
      obtain ⟨w, w1, w2, w3, w4⟩ := ih p.peerDp hpi p4 (by omega)
      refine ⟨u :: w, .hop hne p1 w1, List.nodup_cons.2 ⟨?_, w2⟩, ?_, ?_⟩
      · intro hm
        have := (w3 u hm).2
        omega
      · intro x hx
        rcases List.mem_cons.1 hx with rfl | hx
        · exact ⟨hmem, Nat.le_refl _⟩
        · have := w3 x hx
          exact ⟨this.1, by omega⟩
      · intro x hx hxd
        rcases List.mem_cons.1 hx with rfl | hx
        · exact ⟨p, p1, p2⟩
        · exact w4 x hx hxd
  have uphase : ∀ (k : Nat) (u : Nat), dist g r u = k → InStack g r u →
      ∃ w, Visits (fun u => relativePort n u d) d u w ∧ w.Nodup ∧
        (∀ x ∈ w, x ∉ shortestPath g d r → dist g r x ≤ dist g r u) ∧
        ∀ x ∈ w, x ≠ d → ∃ p, relativePort n x d = some p ∧ Carries m n x p := by
    intro k
    induction k with
    | zero => intro u hk hu; have := dist_pos st hu; omega
    | succ k ih =>
      intro u hk hu
      by_cases hmem : u ∈ shortestPath g d r
      · have hle : dist g r u ≤ dist g r d := by
          rcases (path_dist st _ hd rfl u hmem).2 with rfl | h <;> omega
        obtain ⟨w, w1, w2, w3, w4⟩ := dphase (dist g r d - dist g r u) u hu hmem (by omega)
        exact ⟨w, w1, w2, fun x hx hxn => absurd (w3 x hx).1 hxn, w4⟩
      · obtain ⟨p, p1, p2, p3⟩ := up hu hmem
        have hdist := p3.dist
        have hne : u ≠ d := by
          rintro rfl
          obtain ⟨l, hl⟩ := path_head st hd
          exact hmem (by rw [hl]; simp)
        obtain ⟨w, w1, w2, w3, w4⟩ := ih p.peerDp (by omega) (parent_inStack st hu p3)
        refine ⟨u :: w, .hop hne p1 w1, List.nodup_cons.2 ⟨?_, w2⟩, ?_, ?_⟩
        · intro hm
          have := w3 u hm hmem
          omega
        · intro x hx hxn
          rcases List.mem_cons.1 hx with rfl | hx
          · exact Nat.le_refl _
          · have := w3 x hx hxn
            omega
        · intro x hx hxd
          rcases List.mem_cons.1 hx with rfl | hx
          · exact ⟨p, p1, p2⟩
          · exact w4 x hx hxd
  obtain ⟨w, w1, w2, _, w4⟩ := uphase _ s rfl hs
  exact ⟨w, w1, w2, w4⟩

end

end Faucet.Stack
