import Verif.Stack.Tree

/-!
# A broadcast reaches every switch of a stack exactly once (C28)
-/

namespace Faucet.Stack

section
variable {n : Net} {g : Graph} {r : Nat}

/-! ## Counting -/

theorem inFlight_append (m : Mode) (n : Net) (k : Nat) (a b : List Copy) :
    inFlight m n k (a ++ b) = inFlight m n k a ++ inFlight m n k b := by
  induction k generalizing a b with
  | zero => rfl
  | succ k ih => unfold inFlight; rw [List.flatMap_append, ih]

theorem inFlight_nil (m : Mode) (n : Net) (k : Nat) : inFlight m n k [] = [] := by
  induction k with
  | zero => rfl
  | succ k ih => exact ih

theorem inFlight_all (m : Mode) (n : Net) (k : Nat) (cs : List Copy)
    (h : ∀ c ∈ cs, inFlight m n k [c] = []) : inFlight m n k cs = [] := by
  induction cs with
  | nil => exact inFlight_nil m n k
  | cons c cs ih =>
    have := inFlight_append m n k [c] cs
    rw [List.singleton_append] at this
    rw [this, h c (by simp), ih (fun x hx => h x (List.mem_cons_of_mem _ hx))]
    rfl

theorem flooded_nil (m : Mode) (n : Net) (k : Nat) : flooded m n k [] = [] := by
  induction k with
  | zero => rfl
  | succ k ih => unfold flooded; simpa using ih

theorem count_flooded_append (m : Mode) (n : Net) (k t : Nat) (a b : List Copy) :
    (flooded m n k (a ++ b)).count t = (flooded m n k a).count t + (flooded m n k b).count t := by
  induction k generalizing a b with
  | zero => rfl
  | succ k ih =>
    unfold flooded
    simp only [List.flatMap_append, List.count_append, ih]
    omega

theorem count_flooded (m : Mode) (n : Net) (k t : Nat) (cs : List Copy) :
    (flooded m n k cs).count t = (cs.map (fun c => (flooded m n k [c]).count t)).sum := by
  induction cs with
  | nil => rw [flooded_nil]; rfl
  | cons c cs ih =>
    have := count_flooded_append m n k t [c] cs
    rw [List.singleton_append] at this
    rw [this, ih, List.map_cons, List.sum_cons]

theorem flooded_step (m : Mode) (n : Net) (k : Nat) (c : Copy) :
    flooded m n (k + 1) [c] = locals m n c ++ flooded m n k (nexts m n c) := by
  have : flooded m n (k + 1) [c] = [c].flatMap (locals m n) ++
    flooded m n k ([c].flatMap (nexts m n)) := rfl
  rw [this]; simp

theorem inFlight_step (m : Mode) (n : Net) (k : Nat) (c : Copy) :
    inFlight m n (k + 1) [c] = inFlight m n k (nexts m n c) := by
  have : inFlight m n (k + 1) [c] = inFlight m n k ([c].flatMap (nexts m n)) := rfl
  rw [this]; simp

theorem sum_indicator {α : Type} (P : α → Prop) [DecidablePred P] (L : List α) (hn : L.Nodup)
    (hu : ∀ x ∈ L, ∀ y ∈ L, P x → P y → x = y) :
    ((∃ x ∈ L, P x) → (L.map (fun x => if P x then 1 else 0)).sum = 1) ∧
    ((¬ ∃ x ∈ L, P x) → (L.map (fun x => if P x then 1 else 0)).sum = 0) := by
  induction L with
  | nil => simp
  | cons a L ih =>
    obtain ⟨hna, hnl⟩ := List.nodup_cons.1 hn
    obtain ⟨i1, i2⟩ := ih hnl (fun x hx y hy => hu x (List.mem_cons_of_mem _ hx) y (List.mem_cons_of_mem _ hy))
    constructor
    · rintro ⟨x, hx, hP⟩
      rw [List.map_cons, List.sum_cons]
      by_cases ha : P a
      · rw [if_pos ha, i2]
        rintro ⟨y, hy, hPy⟩
        have := hu a (by simp) y (List.mem_cons_of_mem _ hy) ha hPy
        subst this
        exact hna hy
      · rw [if_neg ha]
        rcases List.mem_cons.1 hx with rfl | hx
        · exact absurd hP ha
        · rw [i1 ⟨x, hx, hP⟩]
    · intro hno
      rw [List.map_cons, List.sum_cons, if_neg (fun ha => hno ⟨a, by simp, ha⟩),
        i2 (fun ⟨x, hx, hP⟩ => hno ⟨x, List.mem_cons_of_mem _ hx, hP⟩)]

theorem eq_singleton {α : Type} {L : List α} (hn : L.Nodup) {a : α} (h : ∀ x, x ∈ L ↔ x = a) :
    L = [a] := by
  cases L with
  | nil => exact absurd ((h a).2 rfl) (by simp)
  | cons b L =>
    have hb : b = a := (h b).1 (by simp)
    subst hb
    cases L with
    | nil => rfl
    | cons c L =>
      have hc : c = b := (h c).1 (by simp)
      subst hc
      simp at hn

/-! ## Ports and arrivals -/

theorem nodup_ports (st : Settled n g r) (s : Nat) : (n.ports s).Nodup :=
  List.Nodup.of_map _ (st.nums s)

theorem nodup_peerPorts (st : Settled n g r) (s : Nat) : (peerPorts n s).Nodup := by
  unfold peerPorts canonUp canonOrder
  exact (isort_perm _ _).nodup_iff.2 ((nodup_ports st s).filter _)

theorem nodup_away (st : Settled n g r) (s : Nat) : (away n s).Nodup :=
  (nodup_peerPorts st s).filter _

theorem nodup_chosenTowards (st : Settled n g r) (s : Nat) : (chosenTowards n s).Nodup := by
  unfold chosenTowards towards
  split
  · simp
  · exact ((nodup_peerPorts st s).filter _).filter _

theorem arrive_up (st : Settled n g r) {s : Nat} (h : InStack g r s) {p : SPort}
    (hp : p ∈ peerPorts n s) (hpar : IsParent g r s p.peerDp) (c : Copy) :
    arrive n p = some c ↔ chosenPort n s = some p ∧ ∃ q, remote n p = some q ∧ c = (p.peerDp, .stack q) := by
  have hc : InStack g r p.peerDp := .step (port_adj st hp).symm h
  obtain ⟨q, hq, _⟩ := st.remote (mem_peerPorts.1 hp).1
  obtain ⟨q1, q2, q3, q4, q5⟩ := remote_peerPorts st hp hq
  have key := pruned_down st hc q1 (by rw [q3]; exact hpar) q5
  rw [q3] at key
  unfold arrive
  rw [hq]
  dsimp only
  by_cases hpr : isPruned n p.peerDp q = false
  · rw [if_neg (by simp [hpr])]
    simp [key.1 hpr, eq_comm]
  · rw [if_pos (by simpa using hpr)]
    simp only [reduceCtorEq, false_iff, not_and]
    intro hch
    exact absurd (key.2 hch) hpr

theorem arrive_down (st : Settled n g r) {s : Nat} (h : InStack g r s) {p : SPort}
    (hp : p ∈ peerPorts n s) (hpar : IsParent g r p.peerDp s) (c : Copy) :
    arrive n p = some c ↔ ∃ q, remote n p = some q ∧ chosenPort n p.peerDp = some q ∧
      c = (p.peerDp, .stack q) := by
  have hc : InStack g r p.peerDp := .step (port_adj st hp).symm h
  obtain ⟨q, hq, _⟩ := st.remote (mem_peerPorts.1 hp).1
  obtain ⟨q1, q2, q3, q4, q5⟩ := remote_peerPorts st hp hq
  have key := pruned_up st hc q1 (by rw [q3]; exact hpar)
  unfold arrive
  rw [hq]
  dsimp only
  by_cases hpr : isPruned n p.peerDp q = false
  · rw [if_neg (by simp [hpr])]
    simp [key.1 hpr, eq_comm]
  · rw [if_pos (by simpa using hpr)]
    simp only [reduceCtorEq, Option.some.injEq, exists_eq_left', false_iff, not_and]
    intro hch
    exact absurd (key.2 hch) hpr

/-- Two ports of a switch never lead to the same arrival. -/
theorem arrive_inj (st : Settled n g r) {s : Nat} {p p' : SPort} (hp : p ∈ peerPorts n s)
    (hp' : p' ∈ peerPorts n s) {c : Copy} (h1 : arrive n p = some c) (h2 : arrive n p' = some c) :
    p = p' := by
  have key : ∀ {x : SPort}, x ∈ peerPorts n s → arrive n x = some c →
      ∃ q, c.2 = .stack q ∧ remote n q = some x := by
    intro x hx hxc
    obtain ⟨q, hq, _⟩ := st.remote (mem_peerPorts.1 hx).1
    unfold arrive at hxc
    rw [hq] at hxc
    dsimp only at hxc
    split at hxc
    · simp at hxc
    · simp only [Option.some.injEq] at hxc
      exact ⟨q, by rw [← hxc], (remote_peerPorts st hx hq).2.2.2.2⟩
  obtain ⟨q, e1, e2⟩ := key hp h1
  obtain ⟨q', e3, e4⟩ := key hp' h2
  rw [e1] at e3
  simp only [Ingress.stack.injEq] at e3
  subst e3
  rw [e2] at e4
  simpa using e4

theorem nodup_filterMap_arrive (st : Settled n g r) {s : Nat} {ps : List SPort} (hn : ps.Nodup)
    (hps : ∀ p ∈ ps, p ∈ peerPorts n s) : (ps.filterMap (arrive n)).Nodup := by
  induction ps with
  | nil => simp
  | cons p ps ih =>
    obtain ⟨hn1, hn2⟩ := List.nodup_cons.1 hn
    have ih' := ih hn2 (fun x hx => hps x (List.mem_cons_of_mem _ hx))
    rw [List.filterMap_cons]
    cases ha : arrive n p with
    | none => exact ih'
    | some c =>
      refine List.nodup_cons.2 ⟨?_, ih'⟩
      intro hc
      obtain ⟨p', hp', hpc⟩ := List.mem_filterMap.1 hc
      have := arrive_inj st (hps p (by simp)) (hps p' (List.mem_cons_of_mem _ hp')) ha hpc
      subst this
      exact hn1 hp'

/-- What a list of outputs to stack ports puts on the wire. -/
theorem filterMap_floodOuts (ps excl : List SPort) (inp : Ingress) :
    (floodOuts ps inp excl).filterMap (actNext n inp) =
      (ps.filter (fun p => decide (inp ≠ .stack p ∧ p ∉ excl))).filterMap (arrive n) := by
  unfold floodOuts
  rw [List.filterMap_map]
  rfl

/-- Copies that arrive at children. -/
def awayNext (n : Net) (s : Nat) (inp : Ingress) : List Copy :=
  (awayActs n s inp).filterMap (actNext n inp)

/-- Copies that arrive at the parent. -/
def towardNext (n : Net) (s : Nat) (inp : Ingress) : List Copy :=
  (towardActs n s inp).filterMap (actNext n inp)

theorem nodup_awayNext (st : Settled n g r) {s : Nat} (h : InStack g r s) (inp : Ingress) :
    (awayNext n s inp).Nodup := by
  unfold awayNext awayActs
  rw [filterMap_floodOuts]
  refine nodup_filterMap_arrive st (s := s) ((nodup_away st s).filter _) ?_
  intro p hp
  exact ((mem_away st h).1 (List.mem_filter.1 hp).1).1

theorem nodup_towardNext (st : Settled n g r) {s : Nat} (h : InStack g r s) (inp : Ingress) :
    (towardNext n s inp).Nodup := by
  unfold towardNext towardActs
  rw [filterMap_floodOuts]
  refine nodup_filterMap_arrive st (s := s) ((nodup_chosenTowards st s).filter _) ?_
  intro p hp
  exact ((mem_chosenTowards st h).1 (List.mem_filter.1 hp).1).1

/-- The copy a child gets from its parent: it comes in on the child's chosen port. -/
def IsChildCopy (n : Net) (g : Graph) (r s : Nat) (c : Copy) : Prop :=
  ∃ q, c.2 = .stack q ∧ chosenPort n c.1 = some q ∧ IsParent g r c.1 s ∧ InStack g r c.1

theorem mem_awayNext (st : Settled n g r) {s : Nat} (h : InStack g r s) {inp : Ingress} {c : Copy} :
    c ∈ awayNext n s inp ↔ IsChildCopy n g r s c ∧ ∀ q, inp = .stack q → q.peerDp ≠ c.1 := by
  unfold awayNext
  rw [List.mem_filterMap]
  constructor
  · rintro ⟨a, ha, hac⟩
    have : ∃ p, a = .out p := by
      unfold awayActs floodOuts at ha
      obtain ⟨p, _, rfl⟩ := List.mem_map.1 ha
      exact ⟨p, rfl⟩
    obtain ⟨p, rfl⟩ := this
    obtain ⟨⟨h1, h2⟩, h3⟩ := (mem_away_acts st h).1 ha
    obtain ⟨q, hq, hch, rfl⟩ := (arrive_down st h h1 h2 c).1 hac
    exact ⟨⟨q, rfl, hch, h2, .step (port_adj st h1).symm h⟩, h3⟩
  · rintro ⟨⟨q, hq, hch, hpar, hi⟩, h3⟩
    obtain ⟨k1, k2, _⟩ := (chosenPort_iff st hi).1 hch
    have hpd : q.peerDp = s := k2.unique st hi hpar
    obtain ⟨p, hp, _⟩ := st.remote (mem_peerPorts.1 k1).1
    obtain ⟨p1, p2, p3, p4, p5⟩ := remote_peerPorts st k1 hp
    rw [hpd] at p1
    have hc : c = (p.peerDp, .stack q) := by rw [← hq, p3]
    refine ⟨.out p, (mem_away_acts st h).2 ⟨⟨p1, by rw [p3]; exact hpar⟩, by rw [p3]; exact h3⟩, ?_⟩
    exact (arrive_down st h p1 (by rw [p3]; exact hpar) c).2 ⟨q, p5, by rw [p3]; exact hch, hc⟩

/-- The copy a parent gets from a child. -/
def IsParentCopy (n : Net) (s : Nat) (c : Copy) : Prop :=
  ∃ p q, chosenPort n s = some p ∧ remote n p = some q ∧ c = (p.peerDp, .stack q)

theorem mem_towardNext (st : Settled n g r) {s : Nat} (h : InStack g r s) {inp : Ingress} {c : Copy} :
    c ∈ towardNext n s inp ↔ IsParentCopy n s c ∧ ∀ p, chosenPort n s = some p → inp ≠ .stack p := by
  unfold towardNext
  rw [List.mem_filterMap]
  constructor
  · rintro ⟨a, ha, hac⟩
    have : ∃ p, a = .out p := by
      unfold towardActs floodOuts at ha
      obtain ⟨p, _, rfl⟩ := List.mem_map.1 ha
      exact ⟨p, rfl⟩
    obtain ⟨p, rfl⟩ := this
    obtain ⟨⟨h1, h2⟩, h3⟩ := (mem_toward_acts st h).1 ha
    obtain ⟨hch, q, hq, rfl⟩ := (arrive_up st h h1 h2 c).1 hac
    refine ⟨⟨p, q, hch, hq, rfl⟩, ?_⟩
    intro p' hp'
    rw [hch] at hp'
    simp only [Option.some.injEq] at hp'
    subst hp'
    exact h3
  · rintro ⟨⟨p, q, hch, hq, rfl⟩, h3⟩
    obtain ⟨k1, k2, _⟩ := (chosenPort_iff st h).1 hch
    exact ⟨.out p, (mem_toward_acts st h).2 ⟨⟨k1, k2⟩, h3 p hch⟩,
      (arrive_up st h k1 k2 _).2 ⟨hch, q, hq, rfl⟩⟩

theorem towardNext_root (st : Settled n g r) (inp : Ingress) : towardNext n r inp = [] := by
  rw [List.eq_nil_iff_forall_not_mem]
  intro c hc
  obtain ⟨⟨p, q, hch, _⟩, _⟩ := (mem_towardNext st (.refl _ r)).1 hc
  obtain ⟨_, k2, _⟩ := (chosenPort_iff st (.refl _ r)).1 hch
  exact k2.ne_root st (.refl _ r) rfl

theorem towardNext_parent (st : Settled n g r) {s : Nat} (h : InStack g r s) {inp : Ingress}
    {p q : SPort} (hch : chosenPort n s = some p) (hq : remote n p = some q) (hin : inp ≠ .stack p) :
    towardNext n s inp = [(p.peerDp, .stack q)] := by
  apply eq_singleton (nodup_towardNext st h inp)
  intro x
  rw [mem_towardNext st h]
  constructor
  · rintro ⟨⟨p', q', h1, h2, rfl⟩, _⟩
    rw [hch] at h1; simp only [Option.some.injEq] at h1; subst h1
    rw [hq] at h2; simp only [Option.some.injEq] at h2; subst h2
    rfl
  · rintro rfl
    refine ⟨⟨p, q, hch, hq, rfl⟩, ?_⟩
    intro p' hp'
    rw [hch] at hp'; simp only [Option.some.injEq] at hp'; subst hp'
    exact hin

theorem towardNext_fromParent (st : Settled n g r) {s : Nat} (h : InStack g r s) {p : SPort}
    (hch : chosenPort n s = some p) : towardNext n s (.stack p) = [] := by
  rw [List.eq_nil_iff_forall_not_mem]
  intro c hc
  exact ((mem_towardNext st h).1 hc).2 p hch rfl

/-! ## What a switch does with a copy -/

theorem next_flag (a b : Bool) (inp : Ingress) : (flagActs a b).filterMap (actNext n inp) = [] := by
  unfold flagActs; split <;> rfl

theorem next_local (inp : Ingress) : [Act.localPorts].filterMap (actNext n inp) = [] := rfl

theorem local_flag (a b : Bool) :
    (flagActs a b).filter (fun x => decide (x = Act.localPorts)) = [] := by
  unfold flagActs; split <;> rfl

theorem local_outs (ps excl : List SPort) (inp : Ingress) :
    (floodOuts ps inp excl).filter (fun x => decide (x = Act.localPorts)) = [] := by
  rw [List.filter_eq_nil_iff]
  intro a ha
  unfold floodOuts at ha
  obtain ⟨p, _, rfl⟩ := List.mem_map.1 ha
  simp

theorem local_away (s : Nat) (inp : Ingress) :
    (awayActs n s inp).filter (fun x => decide (x = Act.localPorts)) = [] := local_outs _ _ _

theorem local_toward (s : Nat) (inp : Ingress) :
    (towardActs n s inp).filter (fun x => decide (x = Act.localPorts)) = [] := local_outs _ _ _

theorem noReflect_nexts (m : Mode) (hm : m.reflect = false) (s : Nat) (inp : Ingress) :
    nexts m n (s, inp) = towardNext n s inp ++ awayNext n s inp ∧ locals m n (s, inp) = [s] := by
  unfold nexts locals floodActs noReflectActs
  simp only [hm, Bool.false_eq_true, if_false]
  cases inp with
  | host e =>
    simp only [List.filterMap_append, List.filter_append, next_flag, local_flag, local_away,
      local_toward]
    exact ⟨by simp only [awayNext, towardNext, next_local]; simp, rfl⟩
  | stack q =>
    simp only [List.filterMap_append, List.filter_append, local_away, local_toward]
    exact ⟨by simp only [awayNext, towardNext, next_local]; simp, rfl⟩

/-- At the root, either strategy sends a copy to the children and floods locally; reflection also
returns a copy where it came from. -/
theorem reflect_root_host (st : Settled n g r) (m : Mode) (hm : m.reflect = true) (e : Bool) :
    nexts m n (r, .host e) = awayNext n r (.host e) ∧ locals m n (r, .host e) = [r] := by
  unfold nexts locals floodActs reflectActs
  simp only [hm, if_true, isRoot_eq st, decide_true]
  simp only [List.filterMap_append, List.filter_append, next_flag, local_flag, local_away]
  exact ⟨by simp only [awayNext, next_local]; simp, rfl⟩

theorem reflect_root_stack (st : Settled n g r) (m : Mode) (hm : m.reflect = true) (q : SPort)
    (hq : q ∈ away n r) :
    nexts m n (r, .stack q) = awayNext n r (.stack q) ++ (arrive n q).toList ∧
      locals m n (r, .stack q) = [r] := by
  unfold nexts locals floodActs reflectActs
  simp only [hm, if_true, isRoot_eq st, decide_true, hq]
  simp only [List.filterMap_append, List.filter_append, next_flag, local_flag, local_away]
  refine ⟨?_, rfl⟩
  rw [List.nil_append]
  unfold awayNext
  have : List.filterMap (actNext n (.stack q)) [Act.inPort] = (arrive n q).toList := by
    rw [List.filterMap_cons]
    unfold actNext
    dsimp only
    cases h : arrive n q <;> rfl
  rw [this, next_local, List.append_nil]

theorem reflect_host (st : Settled n g r) (m : Mode) (hm : m.reflect = true) {s : Nat} (hs : s ≠ r)
    (e : Bool) : nexts m n (s, .host e) = towardNext n s (.host e) ∧ locals m n (s, .host e) = [] := by
  unfold nexts locals floodActs reflectActs
  simp only [hm, if_true, isRoot_eq st, hs, decide_false, Bool.false_eq_true, if_false]
  simp only [List.filterMap_append, List.filter_append, next_flag, local_flag, local_toward]
  exact ⟨by simp [towardNext], rfl⟩

theorem reflect_fromChild (st : Settled n g r) (m : Mode) (hm : m.reflect = true) {s : Nat}
    (hs : s ≠ r) {q : SPort} (hq : q ∈ away n s) :
    nexts m n (s, .stack q) = towardNext n s (.stack q) ∧ locals m n (s, .stack q) = [] := by
  unfold nexts locals floodActs reflectActs
  simp only [hm, if_true, isRoot_eq st, hs, decide_false, Bool.false_eq_true, if_false, hq]
  rw [local_toward]
  exact ⟨rfl, rfl⟩

theorem reflect_fromParent (st : Settled n g r) (m : Mode) (hm : m.reflect = true) {s : Nat}
    (hs : s ≠ r) {q : SPort} (hq : q ∉ away n s) (hq' : q ∈ towards n s) :
    nexts m n (s, .stack q) = awayNext n s (.stack q) ∧ locals m n (s, .stack q) = [s] := by
  unfold nexts locals floodActs reflectActs
  simp only [hm, if_true, isRoot_eq st, hs, decide_false, Bool.false_eq_true, if_false, hq, hq']
  split <;>
  · simp only [List.filterMap_append, List.filter_append, next_flag, local_flag, local_away]
    exact ⟨by simp only [awayNext, next_local]; simp, rfl⟩

theorem chosen_towards_not_away (st : Settled n g r) {s : Nat} (h : InStack g r s) {p : SPort}
    (hch : chosenPort n s = some p) : s ≠ r ∧ p ∉ away n s ∧ p ∈ towards n s := by
  obtain ⟨k1, k2, _⟩ := (chosenPort_iff st h).1 hch
  have hr := k2.ne_root st h
  refine ⟨hr, ?_, (mem_towards st h).2 ⟨hr, k1, k2.dist⟩⟩
  rw [mem_away st h]
  rintro ⟨_, h1 | h1⟩
  · exact hr h1
  · exact h1 k2.dist

/-- A copy from the parent is flooded locally once and passed to the children, in both
strategies. -/
theorem fromParent (st : Settled n g r) (m : Mode) {s : Nat} (h : InStack g r s) {p : SPort}
    (hch : chosenPort n s = some p) :
    nexts m n (s, .stack p) = awayNext n s (.stack p) ∧ locals m n (s, .stack p) = [s] := by
  obtain ⟨h1, h2, h3⟩ := chosen_towards_not_away st h hch
  cases hm : m.reflect with
  | true => exact reflect_fromParent st m hm h1 h2 h3
  | false =>
    obtain ⟨k1, k2⟩ := noReflect_nexts (n := n) m hm s (.stack p)
    rw [towardNext_fromParent st h hch] at k1
    exact ⟨k1, k2⟩

/-! ## Paths to the root -/

theorem path_closed (st : Settled n g r) {c s : Nat} (hpar : IsParent g r c s) :
    ∀ (k : Nat) {t : Nat}, dist g r t = k → InStack g r t → c ∈ shortestPath g t r →
      s ∈ shortestPath g t r := by
  intro k
  induction k with
  | zero => intro t hk h; have := dist_pos st h; omega
  | succ k ih =>
    intro t hk h hc
    by_cases hr : t = r
    · subst hr
      rw [shortestPath_self st.wf st.rootIn] at hc
      simp at hc
      subst hc
      exact absurd rfl (hpar.ne_root st h)
    · obtain ⟨u, hu, hui, hd⟩ := exists_parent st h hr
      rw [hu.1] at hc ⊢
      rcases List.mem_cons.1 hc with rfl | hc
      · have : u = s := hu.unique st h hpar
        subst this
        obtain ⟨l, hl⟩ := path_head st hui
        rw [hl]; simp
      · exact List.mem_cons_of_mem _ (ih (by omega) hui hc)

theorem path_child (st : Settled n g r) {s : Nat} :
    ∀ (k : Nat) {t : Nat}, dist g r t = k → InStack g r t → s ∈ shortestPath g t r → t ≠ s →
      ∃ c, c ∈ shortestPath g t r ∧ IsParent g r c s := by
  intro k
  induction k with
  | zero => intro t hk h; have := dist_pos st h; omega
  | succ k ih =>
    intro t hk h hs hne
    by_cases hr : t = r
    · subst hr
      rw [shortestPath_self st.wf st.rootIn] at hs
      simp at hs
      exact absurd hs.symm hne
    · obtain ⟨u, hu, hui, hd⟩ := exists_parent st h hr
      rw [hu.1] at hs ⊢
      rcases List.mem_cons.1 hs with rfl | hs
      · exact absurd rfl hne
      · by_cases hus : u = s
        · subst hus
          exact ⟨t, by simp, hu⟩
        · obtain ⟨c, hc, hp⟩ := ih (by omega) hui hs hus
          exact ⟨c, List.mem_cons_of_mem _ hc, hp⟩

theorem path_same_dist (st : Settled n g r) : ∀ (k : Nat) {t : Nat}, dist g r t = k → InStack g r t →
    ∀ x ∈ shortestPath g t r, ∀ y ∈ shortestPath g t r, dist g r x = dist g r y → x = y := by
  intro k
  induction k with
  | zero => intro t hk h; have := dist_pos st h; omega
  | succ k ih =>
    intro t hk h x hx y hy hxy
    by_cases hr : t = r
    · subst hr
      rw [shortestPath_self st.wf st.rootIn] at hx hy
      simp at hx hy
      rw [hx, hy]
    · obtain ⟨u, hu, hui, hd⟩ := exists_parent st h hr
      rw [hu.1] at hx hy
      have far : ∀ z ∈ shortestPath g u r, dist g r z ≤ dist g r u := by
        intro z hz
        rcases (path_dist st _ hui rfl z hz).2 with rfl | h' <;> omega
      rcases List.mem_cons.1 hx with hx' | hx' <;> rcases List.mem_cons.1 hy with hy' | hy'
      · rw [hx', hy']
      · have := far y hy'; subst hx'; omega
      · have := far x hx'; subst hy'; omega
      · exact ih (by omega) hui x hx' y hy' hxy

theorem self_in_path (st : Settled n g r) {t : Nat} (h : InStack g r t) : t ∈ shortestPath g t r := by
  obtain ⟨l, hl⟩ := path_head st h
  rw [hl]; simp

theorem root_in_path (st : Settled n g r) {t : Nat} (h : InStack g r t) : r ∈ shortestPath g t r :=
  (shortestPath_spec st.wf (inStack_mem st h) h).1.dst_mem

theorem dist_le (st : Settled n g r) {t : Nat} (h : InStack g r t) : dist g r t ≤ g.nodes.length := by
  obtain ⟨h1, h2⟩ := shortestPath_spec st.wf (inStack_mem st h) h
  obtain ⟨w', k1, k2, _⟩ := h1.shorten _ (Nat.le_refl _)
  have := (h2 w' k1).1
  have := (List.subperm_of_subset k2 (fun x hx => k1.mem_nodes st.wf (inStack_mem st h) x hx)).length_le
  unfold dist
  omega

/-- Of the children of a switch, exactly one is on the path of a switch further out. -/
theorem sum_children (st : Settled n g r) {s t : Nat} (ht : InStack g r t)
    (L : List Copy) (hn : L.Nodup) (cond : Nat → Prop)
    (hL : ∀ c, c ∈ L ↔ IsChildCopy n g r s c ∧ cond c.1) :
    ((∃ c, IsParent g r c s ∧ cond c ∧ c ∈ shortestPath g t r) →
      (L.map (fun c => if c.1 ∈ shortestPath g t r then 1 else 0)).sum = 1) ∧
    ((¬ ∃ c, IsParent g r c s ∧ cond c ∧ c ∈ shortestPath g t r) →
      (L.map (fun c => if c.1 ∈ shortestPath g t r then 1 else 0)).sum = 0) := by
  have hu : ∀ x ∈ L, ∀ y ∈ L, x.1 ∈ shortestPath g t r → y.1 ∈ shortestPath g t r → x = y := by
    intro x hx y hy h1 h2
    obtain ⟨⟨q, a1, a2, a3, a4⟩, _⟩ := (hL x).1 hx
    obtain ⟨⟨q', b1, b2, b3, b4⟩, _⟩ := (hL y).1 hy
    have he : x.1 = y.1 := path_same_dist st _ rfl ht _ h1 _ h2 (by rw [a3.dist, b3.dist])
    rw [he, b2] at a2
    simp only [Option.some.injEq] at a2
    subst a2
    exact Prod.ext he (a1.trans b1.symm)
  obtain ⟨i1, i2⟩ := sum_indicator (fun c : Copy => c.1 ∈ shortestPath g t r) L hn hu
  constructor
  · rintro ⟨c, h1, h2, h3⟩
    apply i1
    have hci := (path_dist st _ ht rfl c h3).1
    obtain ⟨q, hq⟩ := exists_chosenPort st hci (h1.ne_root st hci)
    exact ⟨(c, .stack q), (hL _).2 ⟨⟨q, rfl, hq, h1, hci⟩, h2⟩, h3⟩
  · intro hno
    apply i2
    rintro ⟨x, hx, hp⟩
    obtain ⟨⟨q, _, _, a3, _⟩, b⟩ := (hL x).1 hx
    exact hno ⟨x.1, a3, b, hp⟩

/-! ## Down from the parent -/

theorem down_phase (st : Settled n g r) (m : Mode) : ∀ (f : Nat) {s : Nat} {p : SPort},
    InStack g r s → chosenPort n s = some p → g.nodes.length + 1 ≤ f + dist g r s →
    inFlight m n f [(s, .stack p)] = [] ∧
    ∀ t, InStack g r t → (flooded m n f [(s, .stack p)]).count t =
      if s ∈ shortestPath g t r then 1 else 0 := by
  intro f
  induction f with
  | zero => intro s p h _ hf; have := dist_le st h; omega
  | succ f ih =>
    intro s p h hch hf
    obtain ⟨h1, h2⟩ := fromParent st m h hch
    obtain ⟨k1, k2, _⟩ := (chosenPort_iff st h).1 hch
    have hmem : ∀ c, c ∈ awayNext n s (.stack p) ↔ IsChildCopy n g r s c ∧ True := by
      intro c
      rw [mem_awayNext st h]
      refine and_congr_right fun hc => ?_
      simp only [iff_true]
      rintro q hq he
      simp only [Ingress.stack.injEq] at hq
      subst hq
      obtain ⟨_, _, _, a3, _⟩ := hc
      have d1 := a3.dist
      have d2 := k2.dist
      rw [he] at d2
      omega
    have hrec : ∀ c ∈ awayNext n s (.stack p), inFlight m n f [c] = [] ∧
        ∀ t, InStack g r t → (flooded m n f [c]).count t = if c.1 ∈ shortestPath g t r then 1 else 0 := by
      rintro ⟨c, i⟩ hc
      obtain ⟨⟨q, hq, a2, a3, a4⟩, _⟩ := (hmem _).1 hc
      dsimp only at hq a2 a3 a4
      subst hq
      have := a3.dist
      exact ih a4 a2 (by omega)
    constructor
    · rw [inFlight_step, h1]
      exact inFlight_all _ _ _ _ (fun c hc => (hrec c hc).1)
    · intro t ht
      rw [flooded_step, h1, h2, List.count_append, count_flooded]
      have hmap : (awayNext n s (.stack p)).map (fun c => (flooded m n f [c]).count t) =
          (awayNext n s (.stack p)).map (fun c => if c.1 ∈ shortestPath g t r then 1 else 0) :=
        List.map_congr_left (fun c hc => (hrec c hc).2 t ht)
      rw [hmap]
      obtain ⟨i1, i2⟩ := sum_children st (s := s) ht _ (nodup_awayNext st h _) (fun _ => True) hmem
      by_cases hts : t = s
      · subst hts
        rw [i2, if_pos (self_in_path st ht)]
        · simp
        · rintro ⟨c, hc, _, hcp⟩
          have d1 := hc.dist
          rcases (path_dist st _ ht rfl c hcp).2 with rfl | d2 <;> omega
      · rw [List.count_cons_of_ne (fun h => hts h.symm), List.count_nil]
        by_cases hsp : s ∈ shortestPath g t r
        · rw [if_pos hsp, i1]
          obtain ⟨c, c1, c2⟩ := path_child st _ rfl ht hsp hts
          exact ⟨c, c2, trivial, c1⟩
        · rw [if_neg hsp, i2]
          rintro ⟨c, c1, _, c3⟩
          exact hsp (path_closed st c1 _ rfl ht c3)

/-! ## Children's copies at any switch -/

/-- Sum over the copies sent to children, other than one child the packet came from. -/
theorem children_phase (st : Settled n g r) (m : Mode) {f s : Nat} (_h : InStack g r s)
    (hf : g.nodes.length ≤ f + dist g r s) (L : List Copy) (hn : L.Nodup) (cond : Nat → Prop)
    (hL : ∀ c, c ∈ L ↔ IsChildCopy n g r s c ∧ cond c.1) :
    inFlight m n f L = [] ∧ ∀ t, InStack g r t →
      ((∃ c, IsParent g r c s ∧ cond c ∧ c ∈ shortestPath g t r) → (flooded m n f L).count t = 1) ∧
      ((¬ ∃ c, IsParent g r c s ∧ cond c ∧ c ∈ shortestPath g t r) → (flooded m n f L).count t = 0) := by
  have hrec : ∀ c ∈ L, inFlight m n f [c] = [] ∧
      ∀ t, InStack g r t → (flooded m n f [c]).count t = if c.1 ∈ shortestPath g t r then 1 else 0 := by
    rintro ⟨c, i⟩ hc
    obtain ⟨⟨q, hq, a2, a3, a4⟩, _⟩ := (hL _).1 hc
    dsimp only at hq a2 a3 a4
    subst hq
    have := a3.dist
    exact down_phase st m f a4 a2 (by omega)
  refine ⟨inFlight_all _ _ _ _ (fun c hc => (hrec c hc).1), ?_⟩
  intro t ht
  rw [count_flooded]
  have hmap : L.map (fun c => (flooded m n f [c]).count t) =
      L.map (fun c => if c.1 ∈ shortestPath g t r then 1 else 0) :=
    List.map_congr_left (fun c hc => (hrec c hc).2 t ht)
  rw [hmap]
  exact sum_children st (s := s) ht L hn cond hL

/-! ## Reflection: up to the root and down again -/

/-- The root floods to itself and all of its children. -/
theorem root_phase (st : Settled n g r) (m : Mode) {f : Nat} (hf : g.nodes.length ≤ f + 1)
    {c : Copy} (L : List Copy) (hn : L.Nodup) (hL : ∀ x, x ∈ L ↔ IsChildCopy n g r r x ∧ True)
    (h1 : (nexts m n c).Perm L) (h2 : locals m n c = [r]) :
    inFlight m n (f + 1) [c] = [] ∧
    ∀ t, InStack g r t → (flooded m n (f + 1) [c]).count t = 1 := by
  obtain ⟨i1, i2⟩ := children_phase st m (f := f) (.refl _ r) (by rw [dist_root st]; omega)
    (nexts m n c) (h1.nodup_iff.2 hn) (fun _ => True) (fun x => by rw [h1.mem_iff, hL])
  constructor
  · rw [inFlight_step]; exact i1
  · intro t ht
    rw [flooded_step, h2, List.count_append]
    obtain ⟨j1, j2⟩ := i2 t ht
    by_cases htr : t = r
    · subst htr
      rw [j2]
      · simp
      · rintro ⟨c, hc, _, hcp⟩
        have d1 := hc.dist
        rcases (path_dist st _ ht rfl c hcp).2 with rfl | d2 <;> omega
    · rw [List.count_cons_of_ne (fun h => htr h.symm), List.count_nil, j1]
      obtain ⟨c, c1, c2⟩ := path_child st _ rfl ht (root_in_path st ht) htr
      exact ⟨c, c2, trivial, c1⟩

/-- A copy that came up from a child. -/
def FromChild (n : Net) (g : Graph) (r s c : Nat) (q : SPort) : Prop :=
  InStack g r c ∧ ∃ p, chosenPort n c = some p ∧ p.peerDp = s ∧ remote n p = some q

theorem FromChild.facts (st : Settled n g r) {s c : Nat} {q : SPort} (h : FromChild n g r s c q) :
    InStack g r s ∧ IsParent g r c s ∧ q ∈ peerPorts n s ∧ q.peerDp = c ∧ q ∈ away n s ∧
      ∃ p, chosenPort n c = some p ∧ remote n q = some p := by
  obtain ⟨hc, p, hp, rfl, hq⟩ := h
  obtain ⟨k1, k2, _⟩ := (chosenPort_iff st hc).1 hp
  obtain ⟨q1, q2, q3, q4, q5⟩ := remote_peerPorts st k1 hq
  have hs := parent_inStack st hc k2
  refine ⟨hs, k2, q1, q3, ?_, p, hp, q5⟩
  exact ((mem_active_away st hs).2 ⟨q1, by rw [q3]; exact k2⟩).1

theorem reflect_up (st : Settled n g r) (m : Mode) (hm : m.reflect = true) : ∀ (f : Nat) {s : Nat}
    {inp : Ingress}, InStack g r s → (∀ q, inp = .stack q → ∃ c, FromChild n g r s c q) →
    g.nodes.length + dist g r s ≤ f →
    inFlight m n f [(s, inp)] = [] ∧ ∀ t, InStack g r t → (flooded m n f [(s, inp)]).count t = 1 := by
  intro f
  induction f with
  | zero => intro s inp h _ hf; have := dist_pos st h; omega
  | succ f ih =>
    intro s inp h hin hf
    by_cases hr : s = r
    · subst hr
      rw [dist_root st] at hf
      have hroot : ∀ x : Copy, IsChildCopy n g s s x → ∀ q, Ingress.host false = .stack q → q.peerDp ≠ x.1 :=
        fun x _ q hq => by simp at hq
      cases inp with
      | host e =>
        obtain ⟨h1, h2⟩ := reflect_root_host st m hm e
        refine root_phase st m (by omega) (awayNext n s (.host e)) (nodup_awayNext st h _) ?_
          (by rw [h1]) h2
        intro x
        rw [mem_awayNext st h]
        simp
      | stack q =>
        obtain ⟨c, hc⟩ := hin q rfl
        obtain ⟨f1, f2, f3, f4, f5, p, hp, hpq⟩ := hc.facts st
        obtain ⟨h1, h2⟩ := reflect_root_stack st m hm q f5
        have harr : arrive n q = some (q.peerDp, .stack p) :=
          (arrive_down st h f3 (by rw [f4]; exact f2) _).2 ⟨p, hpq, by rw [f4]; exact hp, rfl⟩
        rw [harr] at h1
        have hcn : ((q.peerDp, Ingress.stack p) : Copy) ∉ awayNext n s (.stack q) := by
          rw [mem_awayNext st h]
          rintro ⟨_, hx⟩
          exact hx q rfl rfl
        refine root_phase st m (by omega) (awayNext n s (.stack q) ++ [(q.peerDp, .stack p)]) ?_ ?_
          (by rw [h1]; exact List.Perm.refl _) h2
        · rw [List.nodup_append]
          refine ⟨nodup_awayNext st h _, by simp, ?_⟩
          intro x hx y hy hxy
          simp only [List.mem_singleton] at hy
          subst hxy; subst hy
          exact hcn hx
        · intro x
          rw [List.mem_append, mem_awayNext st h, List.mem_singleton]
          constructor
          · rintro (hx | rfl)
            · exact ⟨hx.1, trivial⟩
            · exact ⟨⟨p, rfl, by rw [f4]; exact hp, by rw [f4]; exact f2, by rw [f4]; exact hc.1⟩, trivial⟩
          · rintro ⟨hx, _⟩
            by_cases hxe : x.1 = q.peerDp
            · right
              obtain ⟨p', a1, a2, _, _⟩ := hx
              rw [hxe, f4, hp] at a2
              simp only [Option.some.injEq] at a2
              subst a2
              exact Prod.ext hxe a1
            · left
              refine ⟨hx, ?_⟩
              rintro q' hq' he
              simp only [Ingress.stack.injEq] at hq'
              subst hq'
              exact hxe he.symm
    · obtain ⟨p, hp⟩ := exists_chosenPort st h hr
      obtain ⟨k1, k2, _⟩ := (chosenPort_iff st h).1 hp
      obtain ⟨q', hq', _⟩ := st.remote (mem_peerPorts.1 k1).1
      have hpi := parent_inStack st h k2
      have hd := k2.dist
      have hnp : inp ≠ .stack p := by
        rintro rfl
        obtain ⟨c, hc⟩ := hin p rfl
        obtain ⟨f1, f2, f3, f4, f5, _⟩ := hc.facts st
        exact (chosen_towards_not_away st h hp).2.1 f5
      have hn : nexts m n (s, inp) = [(p.peerDp, .stack q')] ∧ locals m n (s, inp) = [] := by
        cases inp with
        | host e =>
          obtain ⟨h1, h2⟩ := reflect_host st m hm hr e
          exact ⟨h1.trans (towardNext_parent st h hp hq' hnp), h2⟩
        | stack q =>
          obtain ⟨c, hc⟩ := hin q rfl
          obtain ⟨f1, f2, f3, f4, f5, _⟩ := hc.facts st
          obtain ⟨h1, h2⟩ := reflect_fromChild st m hm hr f5
          exact ⟨h1.trans (towardNext_parent st h hp hq' hnp), h2⟩
      obtain ⟨i1, i2⟩ := ih (s := p.peerDp) (inp := .stack q') hpi
        (by
          rintro q hq
          simp only [Ingress.stack.injEq] at hq
          subst hq
          exact ⟨s, h, p, hp, rfl, hq'⟩) (by omega)
      constructor
      · rw [inFlight_step, hn.1]; exact i1
      · intro t ht
        rw [flooded_step, hn.1, hn.2, List.nil_append]
        exact i2 t ht

/-! ## No reflection -/

theorem plain_up (st : Settled n g r) (m : Mode) (hm : m.reflect = false) : ∀ (f : Nat) {s : Nat}
    {inp : Ingress}, InStack g r s → (∀ q, inp = .stack q → FromChild n g r s q.peerDp q) →
    g.nodes.length + dist g r s ≤ f →
    inFlight m n f [(s, inp)] = [] ∧ ∀ t, InStack g r t →
      ((∃ q, inp = .stack q ∧ q.peerDp ∈ shortestPath g t r) → (flooded m n f [(s, inp)]).count t = 0) ∧
      ((¬ ∃ q, inp = .stack q ∧ q.peerDp ∈ shortestPath g t r) → (flooded m n f [(s, inp)]).count t = 1) := by
  intro f
  induction f with
  | zero => intro s inp h _ hf; have := dist_pos st h; omega
  | succ f ih =>
    intro s inp h hin hf
    obtain ⟨h1, h2⟩ := noReflect_nexts (n := n) m hm s inp
    obtain ⟨c1, c2⟩ := children_phase st m (f := f) h (by have := dist_pos st h; omega)
      (awayNext n s inp) (nodup_awayNext st h inp) (fun c => ∀ q, inp = .stack q → q.peerDp ≠ c)
      (fun c => mem_awayNext st h)
    have hdeep : ∀ {t}, InStack g r t → ∀ c, IsParent g r c s → c ∈ shortestPath g t r → t ≠ s := by
      rintro t ht c hc hcp rfl
      have d1 := hc.dist
      rcases (path_dist st _ ht rfl c hcp).2 with rfl | d2 <;> omega
    -- what goes up
    have up : inFlight m n f (towardNext n s inp) = [] ∧ ∀ t, InStack g r t →
        (flooded m n f (towardNext n s inp)).count t = if s ∈ shortestPath g t r then 0 else 1 := by
      by_cases hr : s = r
      · subst hr
        rw [towardNext_root st, inFlight_nil, flooded_nil]
        refine ⟨rfl, fun t ht => ?_⟩
        rw [if_pos (root_in_path st ht)]; rfl
      · obtain ⟨p, hp⟩ := exists_chosenPort st h hr
        obtain ⟨k1, k2, _⟩ := (chosenPort_iff st h).1 hp
        obtain ⟨q', hq', _⟩ := st.remote (mem_peerPorts.1 k1).1
        obtain ⟨q1, q2, q3, q4, q5⟩ := remote_peerPorts st k1 hq'
        have hpi := parent_inStack st h k2
        have hd := k2.dist
        have hnp : inp ≠ .stack p := by
          rintro rfl
          obtain ⟨f1, f2, f3, f4, f5, _⟩ := (hin p rfl).facts st
          exact (chosen_towards_not_away st h hp).2.1 f5
        rw [towardNext_parent st h hp hq' hnp]
        obtain ⟨i1, i2⟩ := ih (s := p.peerDp) (inp := .stack q') hpi
          (by
            rintro q hq
            simp only [Ingress.stack.injEq] at hq
            subst hq
            rw [q3]
            exact ⟨h, p, hp, rfl, hq'⟩) (by omega)
        refine ⟨i1, fun t ht => ?_⟩
        obtain ⟨j1, j2⟩ := i2 t ht
        by_cases hsp : s ∈ shortestPath g t r
        · rw [if_pos hsp, j1 ⟨q', rfl, by rw [q3]; exact hsp⟩]
        · rw [if_neg hsp, j2]
          rintro ⟨q, hq, hqp⟩
          simp only [Ingress.stack.injEq] at hq
          subst hq
          rw [q3] at hqp
          exact hsp hqp
    constructor
    · rw [inFlight_step, h1, inFlight_append, up.1, c1]; rfl
    · intro t ht
      rw [flooded_step, h1, h2, List.count_append, count_flooded_append, up.2 t ht]
      obtain ⟨j1, j2⟩ := c2 t ht
      constructor
      · rintro ⟨q, rfl, hqp⟩
        obtain ⟨f1, f2, f3, f4, f5, _⟩ := (hin q rfl).facts st
        have hsp := path_closed st f2 _ rfl ht hqp
        have hts := hdeep ht _ f2 hqp
        rw [if_pos hsp, List.count_cons_of_ne (fun h => hts h.symm), List.count_nil, j2]
        rintro ⟨c, a1, a2, a3⟩
        exact a2 q rfl (path_same_dist st _ rfl ht _ hqp _ a3 (by rw [f2.dist, a1.dist]))
      · intro hno
        by_cases hts : t = s
        · subst hts
          rw [if_pos (self_in_path st ht), j2]
          · simp
          · rintro ⟨c, a1, _, a3⟩
            exact hdeep ht c a1 a3 rfl
        · rw [List.count_cons_of_ne (fun h => hts h.symm), List.count_nil]
          by_cases hsp : s ∈ shortestPath g t r
          · rw [if_pos hsp, j1]
            obtain ⟨c, a1, a2⟩ := path_child st _ rfl ht hsp hts
            refine ⟨c, a2, ?_, a1⟩
            rintro q hq rfl
            exact hno ⟨q, hq, a1⟩
          · rw [if_neg hsp, j2]
            rintro ⟨c, a1, _, a3⟩
            exact hsp (path_closed st a1 _ rfl ht a3)

/-! ## Copies stay in the stack -/

theorem arrive_inStack (st : Settled n g r) {s : Nat} (h : InStack g r s) {p : SPort}
    (hp : p ∈ peerPorts n s) {c : Copy} (hc : arrive n p = some c) : InStack g r c.1 := by
  unfold arrive at hc
  split at hc
  · split at hc
    · simp at hc
    · simp only [Option.some.injEq] at hc
      subst hc
      exact .step (port_adj st hp).symm h
  · simp at hc

theorem flooded_inStack (st : Settled n g r) (m : Mode) : ∀ (f : Nat) (cs : List Copy),
    (∀ c ∈ cs, InStack g r c.1) → ∀ t ∈ flooded m n f cs, InStack g r t := by
  intro f
  induction f with
  | zero => intro cs _ t ht; simp [flooded] at ht
  | succ f ih =>
    intro cs hcs t ht
    have : flooded m n (f + 1) cs = cs.flatMap (locals m n) ++ flooded m n f (cs.flatMap (nexts m n)) := rfl
    rw [this, List.mem_append, List.mem_flatMap] at ht
    rcases ht with ⟨c, hc, ht⟩ | ht
    · unfold locals at ht
      obtain ⟨_, _, rfl⟩ := List.mem_map.1 ht
      exact hcs c hc
    · refine ih _ ?_ t ht
      intro x hx
      obtain ⟨⟨s, i⟩, hc, hx⟩ := List.mem_flatMap.1 hx
      obtain ⟨a, ha, hax⟩ := List.mem_filterMap.1 hx
      have hs : InStack g r s := hcs _ hc
      dsimp only at ha hax
      cases a with
      | out p => exact arrive_inStack st hs (sends_imp st hs ⟨i, .inl ha⟩).1 hax
      | inPort =>
        cases i with
        | host e => simp [actNext] at hax
        | stack p => exact arrive_inStack st hs (sends_imp st hs ⟨.stack p, .inr ⟨ha, rfl⟩⟩).1 hax
      | flag b => simp [actNext] at hax
      | localPorts => simp [actNext] at hax

/-- C28: on a settled stack, whichever flooding strategy is in use and wherever a broadcast comes
in, after finitely many rounds no copy is left, every switch that links join to the root has
flooded it to its own ports exactly once, and no other switch has seen it. -/
theorem broadcast_once (st : Settled n g r) (m : Mode) (s : Nat) (h : Connected (Adj g) s r)
    (ext : Bool) : ∃ k, ∀ k', k ≤ k' →
      inFlight m n k' [(s, .host ext)] = [] ∧
      ∀ t, (Connected (Adj g) t r → (flooded m n k' [(s, .host ext)]).count t = 1) ∧
        (¬ Connected (Adj g) t r → (flooded m n k' [(s, .host ext)]).count t = 0) := by
  refine ⟨g.nodes.length + dist g r s, fun k' hk => ?_⟩
  have out : ∀ t, ¬ Connected (Adj g) t r → (flooded m n k' [(s, .host ext)]).count t = 0 := by
    intro t ht
    rw [List.count_eq_zero]
    intro hm
    exact ht (flooded_inStack st m k' _ (by simpa using h) t hm)
  cases hm : m.reflect with
  | true =>
    obtain ⟨h1, h2⟩ := reflect_up st m hm k' (s := s) (inp := .host ext) h (by simp) hk
    exact ⟨h1, fun t => ⟨h2 t, out t⟩⟩
  | false =>
    obtain ⟨h1, h2⟩ := plain_up st m hm k' (s := s) (inp := .host ext) h (by simp) hk
    exact ⟨h1, fun t => ⟨fun ht => (h2 t ht).2 (by simp), out t⟩⟩

end

end Faucet.Stack
