import Verif.Stack.Hosts
import Verif.Stack.Flood

/-!
# A packet to a host of a stack reaches it exactly once (C65)
-/

namespace Faucet.Stack

/-! ## Specification -/

/-- What switches know of a host at edge port `k` of switch `e` is right: that switch knows it there,
and every other switch that knows it has it on the stack port it uses towards `e`. -/
def Rightly (port : Nat → Option SPort) (h : Hosts) (e k : Nat) : Prop :=
  ∀ s x, h s = some x →
    (s = e ∧ x.loc = .edge k) ∨ (s ≠ e ∧ ∃ p, x.loc = .stack p ∧ port s = some p)

/-- Of the switches from the host's switch to the root, those that know the host form an unbroken
line that starts at the host: whenever one knows it, so does the next one towards the host. -/
def Unbroken (g : Graph) (r : Nat) (h : Hosts) (e : Nat) : Prop :=
  ∀ s c, s ∈ shortestPath g e r → c ∈ shortestPath g e r → IsParent g r c s → h s ≠ none → h c ≠ none

/-- No two links that are up join the same two switches. -/
def NoParallel (n : Net) : Prop :=
  ∀ s, ∀ p ∈ n.ports s, ∀ q ∈ n.ports s, p.up = true → q.up = true → p.peerDp = q.peerDp → p = q

section
variable {n : Net} {g : Graph} {r : Nat}

/-! ## Ports towards a switch -/

/-- Towards a switch beyond it, a switch uses the port whose far end that branch chose. -/
theorem relative_down (st : Settled n g r) {s d : Nat} (hs : InStack g r s) (hd : InStack g r d)
    (hne : s ≠ d) (hmem : s ∈ shortestPath g d r) {p : SPort} (hp : relativePort n s d = some p) :
    ∃ q, p ∈ peerPorts n s ∧ remote n p = some q ∧ chosenPort n p.peerDp = some q ∧
      IsParent g r p.peerDp s ∧ p.peerDp ∈ shortestPath g d r ∧ InStack g r p.peerDp := by
  obtain ⟨a, c, b, hpath, hcu, hci⟩ := path_split st _ rfl hd hmem (fun h => hne h.symm)
  have hb : before (shortestPath g d r) s = c := by
    have hn := path_nodup st _ rfl hd
    rw [hpath] at hn ⊢
    exact before_spec hn
  obtain ⟨l, hl⟩ := path_head st hs
  unfold relativePort at hp
  rw [pathToRoot_eq st, st.graph, st.root, hl, if_neg (by simp), if_neg hne, if_pos hmem, hb] at hp
  have h1 := List.find?_some hp
  have h2 := List.mem_of_find?_eq_some hp
  simp only [Bool.and_eq_true, beq_iff_eq, Bool.not_eq_true'] at h1
  obtain ⟨e1, e2⟩ := h1
  have hpp := ((mem_away st hs).1 h2).1
  obtain ⟨y, hy, _⟩ := st.remote (mem_peerPorts.1 hpp).1
  refine ⟨y, hpp, hy, (pruned_down st hs hpp (by rw [e1]; exact hcu) hy).1 e2, by rw [e1]; exact hcu, ?_, by rw [e1]; exact hci⟩
  rw [e1, hpath]; simp

/-- Towards a switch that is not beyond it, a switch uses its port to the root. -/
theorem relative_up (st : Settled n g r) {s d : Nat} (hs : InStack g r s) (hd : InStack g r d)
    (hmem : s ∉ shortestPath g d r) : relativePort n s d = chosenPort n s := by
  have hne : s ≠ d := by
    rintro rfl
    exact hmem (self_in_path st hd)
  obtain ⟨l, hl⟩ := path_head st hs
  unfold relativePort
  rw [pathToRoot_eq st, st.graph, st.root, hl, if_neg (by simp), if_neg hne, if_neg hmem]

/-! ## Without parallel links nothing is filtered -/

theorem cross_up (st : Settled n g r) (np : NoParallel n) {s : Nat} (h : InStack g r s) {p : SPort}
    (hp : p ∈ peerPorts n s) (hpar : IsParent g r s p.peerDp) :
    chosenPort n s = some p ∧ arrive n p = cross n p := by
  have hch : chosenPort n s = some p := by
    refine (chosenPort_iff st h).2 ⟨hp, hpar, fun q hq hqe => ?_⟩
    have h1 := mem_peerPorts.1 hp
    have h2 := mem_peerPorts.1 hq
    rw [np s p h1.1 q h2.1 h1.2 h2.2 hqe.symm]; exact Nat.le_refl _
  obtain ⟨q, hq, _⟩ := st.remote (mem_peerPorts.1 hp).1
  refine ⟨hch, ?_⟩
  rw [(arrive_up st h hp hpar (p.peerDp, .stack q)).2 ⟨hch, q, hq, rfl⟩]
  unfold cross
  rw [hq]; rfl

theorem cross_down (st : Settled n g r) (np : NoParallel n) {s : Nat} (h : InStack g r s) {p : SPort}
    (hp : p ∈ peerPorts n s) (hpar : IsParent g r p.peerDp s) : arrive n p = cross n p := by
  obtain ⟨q, hq, _⟩ := st.remote (mem_peerPorts.1 hp).1
  obtain ⟨q1, q2, q3, q4, q5⟩ := remote_peerPorts st hp hq
  have hc : InStack g r p.peerDp := .step (port_adj st hp).symm h
  obtain ⟨hch, _⟩ := cross_up st np hc q1 (by rw [q3]; exact hpar)
  rw [(arrive_down st h hp hpar (p.peerDp, .stack q)).2 ⟨q, hq, hch, rfl⟩]
  unfold cross
  rw [hq]; rfl

theorem out_in_acts {m : Mode} {s : Nat} {inp : Ingress} {p : SPort} (h : Act.out p ∈ floodActs m n s inp) :
    Act.out p ∈ towardActs n s inp ∨ Act.out p ∈ awayActs n s inp := by
  have flag : ∀ a b, Act.out p ∉ flagActs a b := by
    intro a b; unfold flagActs; split <;> simp
  unfold floodActs at h
  split at h
  · unfold reflectActs at h
    split at h
    · cases inp with
      | host e => simp only [List.mem_append, flag, List.mem_singleton, reduceCtorEq, or_false, false_or] at h; exact .inr h
      | stack q =>
        dsimp only at h
        split at h <;>
        · simp only [List.mem_append, flag, List.mem_singleton, reduceCtorEq, or_false, false_or] at h
          exact .inr h
    · cases inp with
      | host e => simp only [List.mem_append, flag, false_or] at h; exact .inl h
      | stack q =>
        dsimp only at h
        split at h
        · exact .inl h
        · split at h
          · split at h <;>
            · simp only [List.mem_append, flag, List.mem_singleton, reduceCtorEq, or_false, false_or] at h
              exact .inr h
          · simp only [List.mem_append, flag, false_or] at h; exact .inl h
  · unfold noReflectActs at h
    cases inp with
    | host e =>
      simp only [List.mem_append, flag, List.mem_singleton, reduceCtorEq, or_false, false_or] at h
      exact h
    | stack q =>
      simp only [List.mem_append, List.not_mem_nil, List.mem_singleton, reduceCtorEq, or_false, false_or] at h
      exact h

/-- A packet enters a switch from a host, from a child or from the parent. -/
def TreeIn (n : Net) (g : Graph) (r s : Nat) (inp : Ingress) : Prop :=
  ∀ q, inp = .stack q → (∃ c, FromChild n g r s c q) ∨ chosenPort n s = some q

/-- Flooding of unknown destinations goes where broadcasts go. -/
theorem unknown_next (st : Settled n g r) (np : NoParallel n) (m : Mode) {s : Nat} (h : InStack g r s)
    {inp : Ingress} (hin : TreeIn n g r s inp) :
    (floodActs m n s inp).filterMap (actCross n inp) = nexts m n (s, inp) := by
  unfold nexts
  apply List.filterMap_congr
  intro a ha
  cases a with
  | flag b => rfl
  | localPorts => rfl
  | out p =>
    rcases out_in_acts ha with h' | h'
    · obtain ⟨⟨h1, h2⟩, _⟩ := (mem_toward_acts st h).1 h'
      exact (cross_up st np h h1 h2).2.symm
    · obtain ⟨⟨h1, h2⟩, _⟩ := (mem_away_acts st h).1 h'
      exact (cross_down st np h h1 h2).symm
  | inPort =>
    cases inp with
    | host e => rfl
    | stack q =>
      rcases hin q rfl with ⟨c, hc⟩ | hq
      · obtain ⟨_, f2, f3, f4, _⟩ := hc.facts st
        exact (cross_down st np h f3 (by rw [f4]; exact f2)).symm
      · obtain ⟨k1, k2, _⟩ := (chosenPort_iff st h).1 hq
        exact (cross_up st np h k1 k2).2.symm

/-! ## Counting -/

theorem uflight_append (m : Mode) (h : Hosts) (f : Nat) (a b : List Copy) :
    unicastFlight m n h f (a ++ b) = unicastFlight m n h f a ++ unicastFlight m n h f b := by
  induction f generalizing a b with
  | zero => rfl
  | succ f ih => unfold unicastFlight; rw [List.flatMap_append, ih]

theorem uflight_nil (m : Mode) (h : Hosts) (f : Nat) : unicastFlight m n h f [] = [] := by
  induction f with
  | zero => rfl
  | succ f ih => exact ih

theorem uflight_all (m : Mode) (h : Hosts) (f : Nat) (cs : List Copy)
    (hc : ∀ c ∈ cs, unicastFlight m n h f [c] = []) : unicastFlight m n h f cs = [] := by
  induction cs with
  | nil => exact uflight_nil m h f
  | cons c cs ih =>
    have := uflight_append (n := n) m h f [c] cs
    rw [List.singleton_append] at this
    rw [this, hc c (by simp), ih (fun x hx => hc x (List.mem_cons_of_mem _ hx))]
    rfl

theorem ucopies_nil (m : Mode) (h : Hosts) (e k f : Nat) : unicastCopies m n h e k f [] = 0 := by
  induction f with
  | zero => rfl
  | succ f ih => unfold unicastCopies; simpa using ih

theorem ucopies_append (m : Mode) (h : Hosts) (e k f : Nat) (a b : List Copy) :
    unicastCopies m n h e k f (a ++ b) = unicastCopies m n h e k f a + unicastCopies m n h e k f b := by
  induction f generalizing a b with
  | zero => rfl
  | succ f ih =>
    unfold unicastCopies
    simp only [List.flatMap_append, List.map_append, List.sum_append, ih]
    omega

theorem ucopies_sum (m : Mode) (h : Hosts) (e k f : Nat) (cs : List Copy) :
    unicastCopies m n h e k f cs = (cs.map (fun c => unicastCopies m n h e k f [c])).sum := by
  induction cs with
  | nil => rw [ucopies_nil]; rfl
  | cons c cs ih =>
    have := ucopies_append (n := n) m h e k f [c] cs
    rw [List.singleton_append] at this
    rw [this, ih, List.map_cons, List.sum_cons]

theorem ucopies_step (m : Mode) (h : Hosts) (e k f : Nat) (c : Copy) :
    unicastCopies m n h e k (f + 1) [c] =
      unicastHere m n h e k c + unicastCopies m n h e k f (unicastNext m n h c) := by
  have : unicastCopies m n h e k (f + 1) [c] = ([c].map (unicastHere m n h e k)).sum +
    unicastCopies m n h e k f ([c].flatMap (unicastNext m n h)) := rfl
  rw [this]; simp

theorem uflight_step (m : Mode) (h : Hosts) (f : Nat) (c : Copy) :
    unicastFlight m n h (f + 1) [c] = unicastFlight m n h f (unicastNext m n h c) := by
  have : unicastFlight m n h (f + 1) [c] = unicastFlight m n h f ([c].flatMap (unicastNext m n h)) := rfl
  rw [this]; simp

/-! ## What one switch does -/

theorem at_unknown (st : Settled n g r) (np : NoParallel n) (m : Mode) {hs : Hosts} (e k : Nat) {s : Nat}
    (h : InStack g r s) {inp : Ingress} (hin : TreeIn n g r s inp) (hk : hs s = none) :
    unicastNext m n hs (s, inp) = nexts m n (s, inp) ∧
      unicastHere m n hs e k (s, inp) = if s = e then (locals m n (s, inp)).length else 0 := by
  unfold unicastNext unicastHere
  simp only [hk]
  exact ⟨unknown_next st np m h hin, trivial⟩

theorem at_edge (m : Mode) {hs : Hosts} (e k : Nat) {s : Nat} {inp : Ingress} {x : Ent}
    (hk : hs s = some x) (hl : x.loc = .edge k) (he : s = e) :
    unicastNext m n hs (s, inp) = [] ∧ unicastHere m n hs e k (s, inp) = 1 := by
  obtain ⟨l, t⟩ := x
  dsimp only at hl
  subst hl
  unfold unicastNext unicastHere
  rw [hk]
  exact ⟨rfl, if_pos ⟨he, rfl⟩⟩

theorem at_known (m : Mode) {hs : Hosts} (e k : Nat) {s : Nat} {inp : Ingress} {x : Ent} {p : SPort}
    (hk : hs s = some x) (hl : x.loc = .stack p) :
    unicastNext m n hs (s, inp) = (if inp = .stack p then [] else (cross n p).toList) ∧
      unicastHere m n hs e k (s, inp) = 0 := by
  obtain ⟨l, t⟩ := x
  dsimp only at hl
  subst hl
  unfold unicastNext unicastHere
  simp only [hk, and_self]

/-! ## Down from the parent -/

theorem unicast_down (st : Settled n g r) (np : NoParallel n) (m : Mode) {hs : Hosts} {e k : Nat}
    (he : InStack g r e) (hr : Rightly (fun s => relativePort n s e) hs e k) :
    ∀ (f : Nat) {s : Nat} {p : SPort}, InStack g r s → chosenPort n s = some p →
      g.nodes.length + 1 ≤ f + dist g r s →
      unicastFlight m n hs f [(s, .stack p)] = [] ∧
      unicastCopies m n hs e k f [(s, .stack p)] = if s ∈ shortestPath g e r then 1 else 0 := by
  intro f
  induction f with
  | zero => intro s p h _ hf; have := dist_le st h; omega
  | succ f ih =>
    intro s p h hch hf
    rw [uflight_step, ucopies_step]
    cases hk : hs s with
    | some x =>
      rcases hr s x hk with ⟨h1, h2⟩ | ⟨h1, p', h2, h3⟩
      · obtain ⟨a1, a2⟩ := at_edge (n := n) m (inp := .stack p) e k hk h2 h1
        rw [a1, a2, uflight_nil, ucopies_nil, h1, if_pos (self_in_path st he)]
        exact ⟨rfl, rfl⟩
      · obtain ⟨a1, a2⟩ := at_known (n := n) m (inp := .stack p) e k hk h2
        rw [a1, a2]
        dsimp only at h3
        by_cases hmem : s ∈ shortestPath g e r
        · obtain ⟨q, b1, b2, b3, b4, b5, b6⟩ := relative_down st h he h1 hmem h3
          have hne : (Ingress.stack p) ≠ .stack p' := by
            intro hp
            simp only [Ingress.stack.injEq] at hp
            subst hp
            obtain ⟨_, k2, _⟩ := (chosenPort_iff st h).1 hch
            have d1 := k2.dist
            have d2 := b4.dist
            omega
          have hc : cross n p' = some (p'.peerDp, .stack q) := by unfold cross; rw [b2]; rfl
          rw [if_neg hne, hc, if_pos hmem]
          have d := b4.dist
          obtain ⟨i1, i2⟩ := ih b6 b3 (by omega)
          rw [if_pos b5] at i2
          exact ⟨i1, by rw [Option.toList_some, i2]⟩
        · rw [relative_up st h he hmem, hch] at h3
          simp only [Option.some.injEq] at h3
          rw [if_pos (by rw [h3]), if_neg hmem, uflight_nil, ucopies_nil]
          exact ⟨rfl, rfl⟩
    | none =>
      obtain ⟨a1, a2⟩ := at_unknown st np m e k (inp := .stack p) h
        (fun q hq => .inr (by simp only [Ingress.stack.injEq] at hq; rw [← hq]; exact hch)) hk
      obtain ⟨h1, h2⟩ := fromParent st m h hch
      rw [a1, a2, h1, h2]
      obtain ⟨k1, k2, _⟩ := (chosenPort_iff st h).1 hch
      have hmem : ∀ c, c ∈ awayNext n s (.stack p) ↔ IsChildCopy n g r s c ∧ True := by
        intro c
        rw [mem_awayNext st h]
        refine and_congr_right fun hc => ?_
        simp only [iff_true]
        rintro q hq he
        simp only [Ingress.stack.injEq] at hq
        subst hq
        obtain ⟨_, _, _, a3, _⟩ := hc
        have d1 := a3.dist
        have d2 := k2.dist
        rw [he] at d2
        omega
      have hrec : ∀ c ∈ awayNext n s (.stack p), unicastFlight m n hs f [c] = [] ∧
          unicastCopies m n hs e k f [c] = if c.1 ∈ shortestPath g e r then 1 else 0 := by
        rintro ⟨c, i⟩ hc
        obtain ⟨⟨q, hq, a2, a3, a4⟩, _⟩ := (hmem _).1 hc
        dsimp only at hq a2 a3 a4
        subst hq
        have := a3.dist
        exact ih a4 a2 (by omega)
      refine ⟨uflight_all _ _ _ _ (fun c hc => (hrec c hc).1), ?_⟩
      rw [ucopies_sum]
      have hmap : (awayNext n s (.stack p)).map (fun c => unicastCopies m n hs e k f [c]) =
          (awayNext n s (.stack p)).map (fun c => if c.1 ∈ shortestPath g e r then 1 else 0) :=
        List.map_congr_left (fun c hc => (hrec c hc).2)
      rw [hmap]
      obtain ⟨i1, i2⟩ := sum_children st (s := s) he _ (nodup_awayNext st h _) (fun _ => True) hmem
      by_cases hts : s = e
      · subst hts
        rw [i2, if_pos (self_in_path st he), if_pos rfl]
        · rfl
        · rintro ⟨c, hc, _, hcp⟩
          have d1 := hc.dist
          rcases (path_dist st _ he rfl c hcp).2 with rfl | d2 <;> omega
      · rw [if_neg hts]
        by_cases hsp : s ∈ shortestPath g e r
        · rw [if_pos hsp, i1]
          obtain ⟨c, c1, c2⟩ := path_child st _ rfl he hsp (fun h => hts h.symm)
          exact ⟨c, c2, trivial, c1⟩
        · rw [if_neg hsp, i2]
          rintro ⟨c, c1, _, c3⟩
          exact hsp (path_closed st c1 _ rfl he c3)

theorem unicast_children (st : Settled n g r) (np : NoParallel n) (m : Mode) {hs : Hosts} {e k : Nat}
    (he : InStack g r e) (hr : Rightly (fun s => relativePort n s e) hs e k) {f s : Nat}
    (hf : g.nodes.length ≤ f + dist g r s) (L : List Copy) (hn : L.Nodup) (cond : Nat → Prop)
    (hL : ∀ c, c ∈ L ↔ IsChildCopy n g r s c ∧ cond c.1) :
    unicastFlight m n hs f L = [] ∧
      ((∃ c, IsParent g r c s ∧ cond c ∧ c ∈ shortestPath g e r) → unicastCopies m n hs e k f L = 1) ∧
      ((¬ ∃ c, IsParent g r c s ∧ cond c ∧ c ∈ shortestPath g e r) → unicastCopies m n hs e k f L = 0) := by
  have hrec : ∀ c ∈ L, unicastFlight m n hs f [c] = [] ∧
      unicastCopies m n hs e k f [c] = if c.1 ∈ shortestPath g e r then 1 else 0 := by
    rintro ⟨c, i⟩ hc
    obtain ⟨⟨q, hq, a2, a3, a4⟩, _⟩ := (hL _).1 hc
    dsimp only at hq a2 a3 a4
    subst hq
    have := a3.dist
    exact unicast_down st np m he hr f a4 a2 (by omega)
  refine ⟨uflight_all _ _ _ _ (fun c hc => (hrec c hc).1), ?_⟩
  rw [ucopies_sum]
  have hmap : L.map (fun c => unicastCopies m n hs e k f [c]) =
      L.map (fun c => if c.1 ∈ shortestPath g e r then 1 else 0) :=
    List.map_congr_left (fun c hc => (hrec c hc).2)
  rw [hmap]
  exact sum_children st (s := s) he L hn cond hL

/-! ## Up -/

/-- A packet enters from a host, or from a child; if the host is beyond that child, the child does
not know it. -/
def UpIn (n : Net) (g : Graph) (r s : Nat) (hs : Hosts) (e : Nat) (inp : Ingress) : Prop :=
  ∀ q, inp = .stack q → FromChild n g r s q.peerDp q ∧ (q.peerDp ∈ shortestPath g e r → hs q.peerDp = none)

theorem UpIn.tree {s e : Nat} {hs : Hosts} {inp : Ingress} (h : UpIn n g r s hs e inp) : TreeIn n g r s inp :=
  fun q hq => .inl ⟨_, (h q hq).1⟩

theorem UpIn.not_chosen (st : Settled n g r) {s e : Nat} {hs : Hosts} {inp : Ingress}
    (h : UpIn n g r s hs e inp) (hi : InStack g r s) {p : SPort} (hp : chosenPort n s = some p) :
    inp ≠ .stack p := by
  rintro rfl
  obtain ⟨_, _, _, _, f5, _⟩ := (h p rfl).1.facts st
  exact (chosen_towards_not_away st hi hp).2.1 f5

/-- Going up one step. -/
theorem up_step (st : Settled n g r) {s e : Nat} {hs : Hosts} (h : InStack g r s) {p : SPort}
    (hp : chosenPort n s = some p) (hk : s ∈ shortestPath g e r → hs s = none) :
    ∃ q, remote n p = some q ∧ q.peerDp = s ∧ InStack g r p.peerDp ∧ dist g r s = dist g r p.peerDp + 1 ∧
      UpIn n g r p.peerDp hs e (.stack q) := by
  obtain ⟨k1, k2, _⟩ := (chosenPort_iff st h).1 hp
  obtain ⟨q, hq, _⟩ := st.remote (mem_peerPorts.1 k1).1
  obtain ⟨q1, q2, q3, q4, q5⟩ := remote_peerPorts st k1 hq
  refine ⟨q, hq, q3, parent_inStack st h k2, k2.dist, ?_⟩
  intro q' hq'
  simp only [Ingress.stack.injEq] at hq'
  subst hq'
  rw [q3]
  exact ⟨⟨h, p, hp, rfl, hq⟩, hk⟩

/-- A switch that knows the host: the packet arrives once, given that packets sent up arrive. -/
theorem unicast_known (st : Settled n g r) (np : NoParallel n) (m : Mode) {hs : Hosts} {e k : Nat}
    (he : InStack g r e) (hr : Rightly (fun s => relativePort n s e) hs e k) (hu : Unbroken g r hs e)
    {f s : Nat} {inp : Ingress} (h : InStack g r s) (hin : UpIn n g r s hs e inp)
    (hf : g.nodes.length + dist g r s ≤ f + 1)
    (ih : ∀ {s' : Nat} {q : SPort}, InStack g r s' → UpIn n g r s' hs e (.stack q) →
      q.peerDp ∉ shortestPath g e r → dist g r s = dist g r s' + 1 →
      unicastFlight m n hs f [(s', .stack q)] = [] ∧ unicastCopies m n hs e k f [(s', .stack q)] = 1)
    {x : Ent} (hk : hs s = some x) :
    unicastFlight m n hs (f + 1) [(s, inp)] = [] ∧ unicastCopies m n hs e k (f + 1) [(s, inp)] = 1 := by
  rw [uflight_step, ucopies_step]
  rcases hr s x hk with ⟨h1, h2⟩ | ⟨h1, p', h2, h3⟩
  · obtain ⟨a1, a2⟩ := at_edge (n := n) m (inp := inp) e k hk h2 h1
    rw [a1, a2, uflight_nil, ucopies_nil]
    exact ⟨rfl, rfl⟩
  · obtain ⟨a1, a2⟩ := at_known (n := n) m (inp := inp) e k hk h2
    rw [a1, a2]
    dsimp only at h3
    by_cases hmem : s ∈ shortestPath g e r
    · obtain ⟨q, b1, b2, b3, b4, b5, b6⟩ := relative_down st h he h1 hmem h3
      have hne : inp ≠ .stack p' := by
        intro hp
        have := (hin p' hp).2 b5
        exact hu s _ hmem b5 b4 (by rw [hk]; simp) this
      have hc : cross n p' = some (p'.peerDp, .stack q) := by unfold cross; rw [b2]; rfl
      rw [if_neg hne, hc]
      have d := b4.dist
      have := dist_pos st h
      obtain ⟨i1, i2⟩ := unicast_down st np m he hr f b6 b3 (by omega)
      rw [if_pos b5] at i2
      exact ⟨i1, by rw [Option.toList_some, i2]⟩
    · rw [relative_up st h he hmem] at h3
      obtain ⟨q, b2, b3, b4, b5, b6⟩ := up_step (hs := hs) (e := e) st h h3 (fun h' => absurd h' hmem)
      have hc : cross n p' = some (p'.peerDp, .stack q) := by unfold cross; rw [b2]; rfl
      rw [if_neg (hin.not_chosen st h h3), hc]
      obtain ⟨i1, i2⟩ := ih b4 b6 (by rw [b3]; exact hmem) b5
      exact ⟨i1, by rw [Option.toList_some, i2]⟩

/-! ### Reflection -/

theorem unicast_root (st : Settled n g r) (np : NoParallel n) (m : Mode) {hs : Hosts} {e k : Nat}
    (he : InStack g r e) (hr : Rightly (fun s => relativePort n s e) hs e k) {f : Nat}
    (hf : g.nodes.length ≤ f + 1) {c : Copy} (L : List Copy) (hn : L.Nodup)
    (hL : ∀ x, x ∈ L ↔ IsChildCopy n g r r x ∧ True) (h1 : (unicastNext m n hs c).Perm L)
    (h2 : unicastHere m n hs e k c = if r = e then 1 else 0) :
    unicastFlight m n hs (f + 1) [c] = [] ∧ unicastCopies m n hs e k (f + 1) [c] = 1 := by
  obtain ⟨i1, j1, j2⟩ := unicast_children st np m he hr (f := f) (s := r) (by rw [dist_root st]; omega)
    (unicastNext m n hs c) (h1.nodup_iff.2 hn) (fun _ => True) (fun x => by rw [h1.mem_iff, hL])
  rw [uflight_step, ucopies_step]
  refine ⟨i1, ?_⟩
  rw [h2]
  by_cases htr : r = e
  · rw [if_pos htr, j2]
    rintro ⟨c, hc, _, hcp⟩
    have d1 := hc.dist
    rcases (path_dist st _ he rfl c hcp).2 with d3 | d3
    · rw [d3, ← htr] at d1; omega
    · rw [← htr] at d3; omega
  · rw [if_neg htr, j1]
    obtain ⟨c, c1, c2⟩ := path_child st _ rfl he (root_in_path st he) (fun h => htr h.symm)
    exact ⟨c, c2, trivial, c1⟩

theorem unicast_reflect (st : Settled n g r) (np : NoParallel n) (m : Mode) (hm : m.reflect = true)
    {hs : Hosts} {e k : Nat} (he : InStack g r e) (hr : Rightly (fun s => relativePort n s e) hs e k)
    (hu : Unbroken g r hs e) : ∀ (f : Nat) {s : Nat} {inp : Ingress}, InStack g r s →
      UpIn n g r s hs e inp → g.nodes.length + dist g r s ≤ f →
      unicastFlight m n hs f [(s, inp)] = [] ∧ unicastCopies m n hs e k f [(s, inp)] = 1 := by
  intro f
  induction f with
  | zero => intro s inp h _ hf; have := dist_pos st h; omega
  | succ f ih =>
    intro s inp h hin hf
    cases hk : hs s with
    | some x =>
      exact unicast_known st np m he hr hu h hin hf
        (fun h1 h2 _ h4 => ih h1 h2 (by omega)) hk
    | none =>
      obtain ⟨a1, a2⟩ := at_unknown st np m e k h hin.tree hk
      by_cases hrt : s = r
      · subst hrt
        rw [dist_root st] at hf
        cases inp with
        | host x =>
          obtain ⟨h1, h2⟩ := reflect_root_host st m hm x
          refine unicast_root st np m he hr (by omega) (awayNext n s (.host x)) (nodup_awayNext st h _) ?_
            (by rw [a1, h1]) (by rw [a2, h2]; rfl)
          intro y
          rw [mem_awayNext st h]
          simp
        | stack q =>
          obtain ⟨hc, _⟩ := hin q rfl
          obtain ⟨f1, f2, f3, f4, f5, p, hp, hpq⟩ := hc.facts st
          obtain ⟨h1, h2⟩ := reflect_root_stack st m hm q f5
          have harr : arrive n q = some (q.peerDp, .stack p) :=
            (arrive_down st h f3 (by rw [f4]; exact f2) _).2 ⟨p, hpq, by rw [f4]; exact hp, rfl⟩
          rw [harr] at h1
          have hcn : ((q.peerDp, Ingress.stack p) : Copy) ∉ awayNext n s (.stack q) := by
            rw [mem_awayNext st h]
            rintro ⟨_, hx⟩
            exact hx q rfl rfl
          refine unicast_root st np m he hr (by omega) (awayNext n s (.stack q) ++ [(q.peerDp, .stack p)]) ?_ ?_
            (by rw [a1, h1]; exact List.Perm.refl _) (by rw [a2, h2]; rfl)
          · rw [List.nodup_append]
            refine ⟨nodup_awayNext st h _, by simp, ?_⟩
            intro x hx y hy hxy
            simp only [List.mem_singleton] at hy
            subst hxy; subst hy
            exact hcn hx
          · intro x
            rw [List.mem_append, mem_awayNext st h, List.mem_singleton]
            constructor
            · rintro (hx | rfl)
              · exact ⟨hx.1, trivial⟩
              · exact ⟨⟨p, rfl, hp, f2, hc.1⟩, trivial⟩
            · rintro ⟨hx, _⟩
              by_cases hxe : x.1 = q.peerDp
              · right
                obtain ⟨p', b1, b2, _, _⟩ := hx
                rw [hxe, hp] at b2
                simp only [Option.some.injEq] at b2
                subst b2
                exact Prod.ext hxe b1
              · left
                refine ⟨hx, ?_⟩
                rintro q' hq' he
                simp only [Ingress.stack.injEq] at hq'
                subst hq'
                exact hxe he.symm
      · obtain ⟨p, hp⟩ := exists_chosenPort st h hrt
        obtain ⟨q', hq', _, hpi, hd, hup⟩ := up_step (hs := hs) (e := e) st h hp (fun _ => hk)
        have hnp := hin.not_chosen st h hp
        have hn : nexts m n (s, inp) = [(p.peerDp, .stack q')] ∧ locals m n (s, inp) = [] := by
          cases inp with
          | host x =>
            obtain ⟨h1, h2⟩ := reflect_host st m hm hrt x
            exact ⟨h1.trans (towardNext_parent st h hp hq' hnp), h2⟩
          | stack q =>
            obtain ⟨hc, _⟩ := hin q rfl
            obtain ⟨f1, f2, f3, f4, f5, _⟩ := hc.facts st
            obtain ⟨h1, h2⟩ := reflect_fromChild st m hm hrt f5
            exact ⟨h1.trans (towardNext_parent st h hp hq' hnp), h2⟩
        rw [uflight_step, ucopies_step, a1, a2, hn.1, hn.2]
        obtain ⟨i1, i2⟩ := ih hpi hup (by omega)
        refine ⟨i1, ?_⟩
        rw [i2]
        split <;> rfl

/-! ### No reflection -/

theorem unicast_plain (st : Settled n g r) (np : NoParallel n) (m : Mode) (hm : m.reflect = false)
    {hs : Hosts} {e k : Nat} (he : InStack g r e) (hr : Rightly (fun s => relativePort n s e) hs e k)
    (hu : Unbroken g r hs e) : ∀ (f : Nat) {s : Nat} {inp : Ingress}, InStack g r s →
      UpIn n g r s hs e inp → g.nodes.length + dist g r s ≤ f →
      unicastFlight m n hs f [(s, inp)] = [] ∧
      ((∃ q, inp = .stack q ∧ q.peerDp ∈ shortestPath g e r) → unicastCopies m n hs e k f [(s, inp)] = 0) ∧
      ((¬ ∃ q, inp = .stack q ∧ q.peerDp ∈ shortestPath g e r) → unicastCopies m n hs e k f [(s, inp)] = 1) := by
  intro f
  induction f with
  | zero => intro s inp h _ hf; have := dist_pos st h; omega
  | succ f ih =>
    intro s inp h hin hf
    cases hk : hs s with
    | some x =>
      have hno : ¬ ∃ q, inp = .stack q ∧ q.peerDp ∈ shortestPath g e r := by
        rintro ⟨q, hq, hqp⟩
        obtain ⟨hc, hcn⟩ := hin q hq
        obtain ⟨_, f2, _⟩ := hc.facts st
        exact hu s _ (path_closed st f2 _ rfl he hqp) hqp f2 (by rw [hk]; simp) (hcn hqp)
      obtain ⟨i1, i2⟩ := unicast_known st np m he hr hu h hin hf
        (fun {s' q} h1 h2 h3 h4 => by
          obtain ⟨j1, _, j3⟩ := ih h1 h2 (by omega)
          refine ⟨j1, j3 ?_⟩
          rintro ⟨q', hq', hqp⟩
          simp only [Ingress.stack.injEq] at hq'
          subst hq'
          exact h3 hqp) hk
      exact ⟨i1, fun h' => absurd h' hno, fun _ => i2⟩
    | none =>
      obtain ⟨a1, a2⟩ := at_unknown st np m e k h hin.tree hk
      obtain ⟨h1, h2⟩ := noReflect_nexts (n := n) m hm s inp
      obtain ⟨c1, j1, j2⟩ := unicast_children st np m he hr (f := f) (s := s) (by have := dist_pos st h; omega)
        (awayNext n s inp) (nodup_awayNext st h inp) (fun c => ∀ q, inp = .stack q → q.peerDp ≠ c)
        (fun c => mem_awayNext st h)
      have hdeep : ∀ c, IsParent g r c s → c ∈ shortestPath g e r → e ≠ s := by
        rintro c hc hcp rfl
        have d1 := hc.dist
        rcases (path_dist st _ he rfl c hcp).2 with rfl | d2 <;> omega
      -- what goes up
      have up : unicastFlight m n hs f (towardNext n s inp) = [] ∧
          unicastCopies m n hs e k f (towardNext n s inp) = if s ∈ shortestPath g e r then 0 else 1 := by
        by_cases hrt : s = r
        · subst hrt
          rw [towardNext_root st, uflight_nil, ucopies_nil, if_pos (root_in_path st he)]
          exact ⟨rfl, rfl⟩
        · obtain ⟨p, hp⟩ := exists_chosenPort st h hrt
          obtain ⟨q', hq', hqs, hpi, hd, hup⟩ := up_step (hs := hs) (e := e) st h hp (fun _ => hk)
          rw [towardNext_parent st h hp hq' (hin.not_chosen st h hp)]
          obtain ⟨i1, i2, i3⟩ := ih hpi hup (by omega)
          refine ⟨i1, ?_⟩
          by_cases hsp : s ∈ shortestPath g e r
          · rw [if_pos hsp, i2 ⟨q', rfl, by rw [hqs]; exact hsp⟩]
          · rw [if_neg hsp, i3]
            rintro ⟨q, hq, hqp⟩
            simp only [Ingress.stack.injEq] at hq
            subst hq
            rw [hqs] at hqp
            exact hsp hqp
      rw [uflight_step, ucopies_step, a1, a2, h1, h2, uflight_append, ucopies_append, up.1, up.2, c1]
      refine ⟨rfl, ?_, ?_⟩
      · rintro ⟨q, rfl, hqp⟩
        obtain ⟨hc, _⟩ := hin q rfl
        obtain ⟨f1, f2, f3, f4, f5, _⟩ := hc.facts st
        have hsp := path_closed st f2 _ rfl he hqp
        have hts := hdeep _ f2 hqp
        rw [if_pos hsp, if_neg (fun h => hts h.symm), j2]
        rintro ⟨c, a1, a2, a3⟩
        exact a2 q rfl (path_same_dist st _ rfl he _ hqp _ a3 (by rw [f2.dist, a1.dist]))
      · intro hno
        by_cases hts : s = e
        · subst hts
          rw [if_pos (self_in_path st he), if_pos rfl, j2]
          · rfl
          · rintro ⟨c, a1, _, a3⟩
            exact hdeep c a1 a3 rfl
        · rw [if_neg hts]
          by_cases hsp : s ∈ shortestPath g e r
          · rw [if_pos hsp, j1]
            obtain ⟨c, a1, a2⟩ := path_child st _ rfl he hsp (fun h => hts h.symm)
            refine ⟨c, a2, ?_, a1⟩
            rintro q hq rfl
            exact hno ⟨q, hq, a1⟩
          · rw [if_neg hsp, j2]
            rintro ⟨c, a1, _, a3⟩
            exact hsp (path_closed st a1 _ rfl he a3)

/-- C65: on a settled stack, if what switches know of a host is right and unbroken, then a packet to
the host that enters the stack at any switch reaches the host exactly once and dies out, whichever
switches know the host. -/
theorem unicast_once_partial (st : Settled n g r) (np : NoParallel n) (m : Mode) {hs : Hosts} {e k : Nat}
    (he : Connected (Adj g) e r) (hr : Rightly (fun s => relativePort n s e) hs e k)
    (hu : Unbroken g r hs e) (s : Nat) (h : Connected (Adj g) s r) (ext : Bool) :
    ∃ f, ∀ f', f ≤ f' → unicastFlight m n hs f' [(s, .host ext)] = [] ∧
      unicastCopies m n hs e k f' [(s, .host ext)] = 1 := by
  refine ⟨g.nodes.length + dist g r s, fun f hf => ?_⟩
  have hin : UpIn n g r s hs e (.host ext) := fun q hq => by simp at hq
  cases hm : m.reflect with
  | true => exact unicast_reflect st np m hm he hr hu f h hin hf
  | false =>
    obtain ⟨i1, _, i3⟩ := unicast_plain st np m hm he hr hu f h hin hf
    exact ⟨i1, i3 (by rintro ⟨q, hq, _⟩; simp at hq)⟩

end

end Faucet.Stack
