import Verif.Lacp.Model
import Mathlib.Data.List.Nodup

/-!
# The switch chosen for a bundle in a stack: properties
-/

namespace Faucet.Lacp

/-- Members of a bundle up on a switch. -/
def members (lag : Nat) (d : Dp) : Nat := (d.up.get? lag).getD 0

/-- The entry of one switch in `ports`. -/
def count (lag : Nat) (d : Dp) : Option Nat :=
  match d.up.get? lag with
  | some k => some k
  | none => if d.nosync = [] then none else some 0

def entry (lag : Nat) (d : Dp) : Option (Nat × Nat) := (count lag d).map (fun k => (d.id, k))

theorem set_of_not_mem (d : Dict Nat Nat) (k v : Nat) (h : k ∉ d.keys) : d.set k v = d ++ [(k, v)] := by
  induction d with
  | nil => rfl
  | cons e d ih =>
    simp only [Dict.keys, List.map_cons, List.mem_cons, not_or] at h
    have h1 : ¬ e.1 = k := fun h' => h.1 h'.symm
    obtain ⟨e1, e2⟩ := e
    simp only [Dict.set]
    rw [if_neg h1, ih h.2]; rfl

theorem portCounts_aux (lag : Nat) (dps : List Dp) (acc : Dict Nat Nat) (hnd : (dps.map (·.id)).Nodup)
    (hdis : ∀ d ∈ dps, d.id ∉ acc.keys) :
    dps.foldl (countDp lag) acc = acc ++ dps.filterMap (entry lag) := by
  induction dps generalizing acc with
  | nil => simp
  | cons d ds ih =>
    rw [List.map_cons, List.nodup_cons] at hnd
    have hset : ∀ k, acc.set d.id k = acc ++ [(d.id, k)] := fun k =>
      set_of_not_mem acc d.id k (hdis d (by simp))
    have hk : ∀ k, ∀ e ∈ ds, e.id ∉ Dict.keys (acc ++ [(d.id, k)]) := by
      intro k e he hm
      simp only [Dict.keys, List.map_append, List.map_cons, List.map_nil, List.mem_append, List.mem_singleton] at hm
      rcases hm with hm | hm
      · exact hdis e (by simp [he]) hm
      · exact hnd.1 (List.mem_map.2 ⟨e, he, hm⟩)
    rw [List.foldl_cons]
    have hcd : countDp lag acc d = if d.nosync = [] ∨ (countUp lag acc d).has d.id then countUp lag acc d
      else (countUp lag acc d).set d.id 0 := rfl
    rw [hcd]
    cases hu : d.up.get? lag with
    | some k =>
      have hup : countUp lag acc d = acc.set d.id k := by unfold countUp; rw [hu]
      have hh : (Dict.has (acc.set d.id k) d.id) = true := by
        simp [Dict.has, Dict.get?_set_self]
      rw [hup, if_pos (Or.inr hh), hset, ih _ hnd.2 (hk k)]
      simp [entry, count, hu]
    | none =>
      have hh : (Dict.has acc d.id) = false := by
        have := (Dict.get?_eq_none_iff (d := acc) (k := d.id)).2 (hdis d (by simp))
        simp [Dict.has, this]
      have hup : countUp lag acc d = acc := by unfold countUp; rw [hu]
      rw [hup]
      by_cases hn : d.nosync = []
      · rw [if_pos (Or.inl hn), ih _ hnd.2 (fun e he => hdis e (by simp [he]))]
        simp [entry, count, hu, hn]
      · rw [if_neg (by simp [hn, hh]), hset, ih _ hnd.2 (hk 0)]
        simp [entry, count, hu, hn]

theorem portCounts_eq (lag : Nat) (dps : List Dp) (hnd : (dps.map (·.id)).Nodup) :
    portCounts lag dps = dps.filterMap (entry lag) :=
  portCounts_aux lag dps [] hnd (by simp [Dict.keys])

theorem le_foldl_max (l : List Nat) (a : Nat) : a ≤ l.foldl max a ∧ ∀ x ∈ l, x ≤ l.foldl max a := by
  induction l generalizing a with
  | nil => simp
  | cons b l ih =>
    have h := ih (max a b)
    refine ⟨by simp only [List.foldl_cons]; omega, ?_⟩
    intro x hx
    rcases List.mem_cons.1 hx with rfl | hx
    · simp only [List.foldl_cons]; omega
    · exact h.2 x hx

theorem foldl_max_mem (l : List Nat) (a : Nat) : l.foldl max a = a ∨ l.foldl max a ∈ l := by
  induction l generalizing a with
  | nil => simp
  | cons b l ih =>
    simp only [List.foldl_cons, List.mem_cons]
    rcases ih (max a b) with h | h
    · rw [h]
      by_cases hab : a ≤ b
      · right; left; omega
      · left; omega
    · right; right; exact h

/-- The switches with the most members, as computed. -/
def most (lag : Nat) (dps : List Dp) : List Nat :=
  (portCounts lag dps).filterMap (fun e => if e.2 = (portCounts lag dps).values.foldl max 0 then some e.1 else Option.none)

theorem count_members (lag : Nat) (d : Dp) (k : Nat) (h : count lag d = some k) : k = members lag d := by
  unfold count at h
  unfold members
  cases hu : d.up.get? lag with
  | some j => rw [hu] at h; simpa using h.symm
  | none =>
    rw [hu] at h
    by_cases hn : d.nosync = [] <;> simp [hn] at h
    simp [← h]

theorem count_none_members (lag : Nat) (d : Dp) (h : count lag d = none) : members lag d = 0 := by
  unfold count at h
  unfold members
  cases hu : d.up.get? lag with
  | some j => rw [hu] at h; cases h
  | none => rfl

theorem mem_portCounts (lag : Nat) (dps : List Dp) (hnd : (dps.map (·.id)).Nodup) (e : Nat × Nat) :
    e ∈ portCounts lag dps ↔ ∃ d ∈ dps, d.id = e.1 ∧ count lag d = some e.2 := by
  rw [portCounts_eq lag dps hnd, List.mem_filterMap]
  constructor
  · rintro ⟨d, hd, h⟩
    obtain ⟨k, h1, rfl⟩ := Option.map_eq_some_iff.1 h
    exact ⟨d, hd, rfl, h1⟩
  · rintro ⟨d, hd, h1, h2⟩
    exact ⟨d, hd, by simp [entry, h2, h1]⟩

theorem best_ge (lag : Nat) (dps : List Dp) (hnd : (dps.map (·.id)).Nodup) (d : Dp) (hd : d ∈ dps) :
    members lag d ≤ (portCounts lag dps).values.foldl max 0 := by
  cases hc : count lag d with
  | none => rw [count_none_members lag d hc]; omega
  | some k =>
    rw [← count_members lag d k hc]
    exact (le_foldl_max _ 0).2 k (List.mem_map.2 ⟨(d.id, k), (mem_portCounts lag dps hnd _).2 ⟨d, hd, rfl, hc⟩, rfl⟩)

theorem mem_most (lag : Nat) (dps : List Dp) (hnd : (dps.map (·.id)).Nodup) (i : Nat) :
    i ∈ most lag dps ↔ ∃ d ∈ dps, d.id = i ∧ count lag d ≠ none ∧ ∀ e ∈ dps, members lag e ≤ members lag d := by
  unfold most
  rw [List.mem_filterMap]
  constructor
  · rintro ⟨e, he, h⟩
    obtain ⟨d, hd, h1, h2⟩ := (mem_portCounts lag dps hnd e).1 he
    split at h
    · rename_i hb
      injection h with h
      refine ⟨d, hd, h1.trans h, by rw [h2]; simp, ?_⟩
      intro x hx
      have := best_ge lag dps hnd x hx
      rw [← count_members lag d _ h2, hb]
      exact this
    · cases h
  · rintro ⟨d, hd, h1, h2, h3⟩
    obtain ⟨k, hk⟩ := Option.ne_none_iff_exists'.1 h2
    have hm := (mem_portCounts lag dps hnd (d.id, k)).2 ⟨d, hd, rfl, hk⟩
    refine ⟨(d.id, k), hm, ?_⟩
    have hb : k = (portCounts lag dps).values.foldl max 0 := by
      have h4 := (le_foldl_max ((portCounts lag dps).values) 0).2 k (List.mem_map.2 ⟨_, hm, rfl⟩)
      rcases foldl_max_mem ((portCounts lag dps).values) 0 with h5 | h5
      · omega
      · obtain ⟨e, he, h6⟩ := List.mem_map.1 h5
        obtain ⟨x, hx, _, h7⟩ := (mem_portCounts lag dps hnd e).1 he
        have h8 := h3 x hx
        rw [← count_members lag x _ h7, ← count_members lag d _ hk] at h8
        omega
    simp only [← hb, if_true, h1]

theorem nodup_most (lag : Nat) (dps : List Dp) (hnd : (dps.map (·.id)).Nodup) : (most lag dps).Nodup := by
  have h : (portCounts lag dps).map (·.1) |>.Nodup := by
    rw [portCounts_eq lag dps hnd]
    rw [List.map_filterMap]
    have : (dps.filterMap (fun d => (entry lag d).map (·.1))).Sublist (dps.map (·.id)) := by
      clear hnd
      induction dps with
      | nil => simp
      | cons d ds ih =>
        rw [List.filterMap_cons, List.map_cons]
        cases hc : count lag d with
        | none => simp only [entry, hc, Option.map_none]; exact ih.cons _
        | some k => simp only [entry, hc, Option.map_some]; exact ih.cons_cons _
    exact this.nodup hnd
  unfold most
  generalize (portCounts lag dps).values.foldl max 0 = b
  revert h
  generalize portCounts lag dps = l
  intro h
  have : (l.filterMap (fun e => if e.2 = b then some e.1 else Option.none)).Sublist (l.map (·.1)) := by
    clear h
    induction l with
    | nil => simp
    | cons e l ih =>
      rw [List.filterMap_cons, List.map_cons]
      by_cases he : e.2 = b
      · simp only [he, if_true]; exact ih.cons_cons _
      · simp only [he, if_false]; exact ih.cons _
  exact this.nodup h

/-- The root as found when walking the switches. -/
def rootId (dps : List Dp) : Option Nat := (dps.reverse.find? (fun d => d.root)).map (·.id)

theorem rootId_of (dps : List Dp) (d : Dp) (hd : d ∈ dps) (hr : d.root = true)
    (huniq : ∀ e ∈ dps, e.root = true → e.id = d.id) : rootId dps = some d.id := by
  unfold rootId
  cases hf : dps.reverse.find? (fun d => d.root) with
  | none =>
    exact absurd hr (by simpa using List.find?_eq_none.1 hf d (by simpa using hd))
  | some e =>
    have h1 := List.find?_some hf
    have h2 := List.mem_of_find?_eq_some hf
    simp [huniq e (by simpa using h2) h1]

theorem rootId_some (dps : List Dp) (i : Nat) (h : rootId dps = some i) : ∃ d ∈ dps, d.root = true ∧ d.id = i := by
  unfold rootId at h
  obtain ⟨e, hf, rfl⟩ := Option.map_eq_some_iff.1 h
  exact ⟨e, by simpa using List.mem_of_find?_eq_some hf, by simpa using List.find?_some hf, rfl⟩

theorem nominate_cases (lag : Nat) (o : Bool) (dps : List Dp) (i : Nat) :
    nominate lag o dps = .dp i ↔
      o = true ∧ (most lag dps = [i] ∨ (2 ≤ (most lag dps).length ∧ rootId dps = some i ∧ i ∈ most lag dps)) := by
  unfold nominate
  cases o
  · simp
  simp only [Bool.not_true, if_false, Bool.false_eq_true, true_and]
  by_cases hp : portCounts lag dps = []
  · rw [if_pos hp]
    have : most lag dps = [] := by unfold most; rw [hp]; rfl
    simp [this]
  rw [if_neg hp]
  show (match most lag dps with
    | [d] => Nomination.dp d
    | _ => if (rootId dps).any (fun r => (most lag dps).contains r) then .dp ((rootId dps).getD 0)
      else .list (isort (fun a b => decide (a ≤ b)) (most lag dps))) = .dp i ↔ _
  cases hm : most lag dps with
  | nil =>
    cases hr : rootId dps <;> simp
  | cons a l =>
    cases l with
    | nil => simp
    | cons b l =>
      cases hr : rootId dps with
      | none => simp
      | some r =>
        simp only [Option.any_some, Option.getD_some]
        by_cases hc : r ∈ a :: b :: l
        · rw [if_pos (by simpa using hc)]
          constructor
          · intro h; injection h with h; subst h; exact Or.inr ⟨by simp, rfl, hc⟩
          · rintro (h | ⟨_, h, _⟩)
            · simp at h
            · injection h with h; rw [h]
        · rw [if_neg (by simpa using hc)]
          constructor
          · intro h; cases h
          · rintro (h | ⟨_, h, h2⟩)
            · simp at h
            · injection h with h; subst h; exact absurd h2 hc

/-- **C23, most members.** A nominated switch is one of the stack, and none has more members of the bundle up. -/
theorem nominated_has_most (lag : Nat) (o : Bool) (dps : List Dp) (hnd : (dps.map (·.id)).Nodup) (i : Nat)
    (h : nominate lag o dps = .dp i) : ∃ d ∈ dps, d.id = i ∧ ∀ e ∈ dps, members lag e ≤ members lag d := by
  obtain ⟨_, h⟩ := (nominate_cases lag o dps i).1 h
  have hi : i ∈ most lag dps := by
    rcases h with h | ⟨_, _, h⟩
    · rw [h]; simp
    · exact h
  obtain ⟨d, hd, h1, _, h3⟩ := (mem_most lag dps hnd i).1 hi
  exact ⟨d, hd, h1, h3⟩

/-- **C23, members.** If any switch has a member of the bundle up, a nominated one has. -/
theorem nominated_has_member (lag : Nat) (o : Bool) (dps : List Dp) (hnd : (dps.map (·.id)).Nodup) (i : Nat)
    (h : nominate lag o dps = .dp i) (hex : ∃ e ∈ dps, 0 < members lag e) : ∃ d ∈ dps, d.id = i ∧ 0 < members lag d := by
  obtain ⟨d, hd, h1, h2⟩ := nominated_has_most lag o dps hnd i h
  obtain ⟨e, he, h3⟩ := hex
  exact ⟨d, hd, h1, by have := h2 e he; omega⟩

theorem count_of_pos (lag : Nat) (d : Dp) (h : 0 < members lag d) : count lag d ≠ none := by
  intro hc; rw [count_none_members lag d hc] at h; omega

/-- **C23, strictly most.** A switch with strictly more members up than every other is nominated. -/
theorem strict_most_nominated (lag : Nat) (dps : List Dp) (hnd : (dps.map (·.id)).Nodup) (d : Dp) (hd : d ∈ dps)
    (hpos : 0 < members lag d) (h : ∀ e ∈ dps, e ≠ d → members lag e < members lag d) :
    nominate lag true dps = .dp d.id := by
  rw [nominate_cases lag true dps]
  refine ⟨rfl, Or.inl ?_⟩
  have h1 : d.id ∈ most lag dps := (mem_most lag dps hnd d.id).2 ⟨d, hd, rfl, count_of_pos lag d hpos, fun e he => by
    by_cases he2 : e = d
    · rw [he2]; exact Nat.le_refl _
    · exact Nat.le_of_lt (h e he he2)⟩
  have h2 : ∀ i ∈ most lag dps, i = d.id := by
    intro i hi
    obtain ⟨e, he, h3, _, h4⟩ := (mem_most lag dps hnd i).1 hi
    by_cases he2 : e = d
    · rw [← h3, he2]
    · have h5 := h e he he2
      have h6 := h4 d hd
      omega
  have h3 := nodup_most lag dps hnd
  match hm : most lag dps with
  | [] => rw [hm] at h1; cases h1
  | [a] => rw [h2 a (by rw [hm]; simp)]
  | a :: b :: l =>
    rw [hm] at h3 h2
    have ha := h2 a (by simp)
    have hb := h2 b (by simp)
    simp [ha, hb] at h3

/-- **C23, root.** Among switches with equally many members up, and at least one, the root is nominated. -/
theorem root_wins_tie (lag : Nat) (dps : List Dp) (hnd : (dps.map (·.id)).Nodup) (d : Dp) (hd : d ∈ dps)
    (hr : d.root = true) (huniq : ∀ e ∈ dps, e.root = true → e.id = d.id) (hpos : 0 < members lag d)
    (h : ∀ e ∈ dps, members lag e ≤ members lag d) : nominate lag true dps = .dp d.id := by
  rw [nominate_cases lag true dps]
  refine ⟨rfl, ?_⟩
  have h1 : d.id ∈ most lag dps := (mem_most lag dps hnd d.id).2 ⟨d, hd, rfl, count_of_pos lag d hpos, h⟩
  match hm : most lag dps with
  | [] => rw [hm] at h1; cases h1
  | [a] => rw [hm] at h1; left; rw [List.mem_singleton.1 h1]
  | a :: b :: l => rw [hm] at h1; exact Or.inr ⟨by simp, rootId_of dps d hd hr huniq, h1⟩

theorem rootId_perm (dps dps' : List Dp) (hp : dps.Perm dps')
    (huniq : ∀ d ∈ dps, ∀ e ∈ dps, d.root = true → e.root = true → d.id = e.id) : rootId dps = rootId dps' := by
  cases h : rootId dps with
  | some i =>
    obtain ⟨d, hd, hr, rfl⟩ := rootId_some dps i h
    rw [rootId_of dps' d (hp.mem_iff.1 hd) hr (fun e he her => huniq e (hp.mem_iff.2 he) d hd her hr)]
  | none =>
    cases h' : rootId dps' with
    | none => rfl
    | some i =>
      obtain ⟨d, hd, hr, rfl⟩ := rootId_some dps' i h'
      have hd := hp.mem_iff.2 hd
      rw [rootId_of dps d hd hr (fun e he her => huniq e he d hd her hr)] at h
      cases h

/-- **C23, agreement.** All switches of a stack, each of which walks the same switches in its own order, nominate the same
switch for a bundle: for every switch they agree whether it is the nominated one. -/
theorem switches_agree (lag : Nat) (dps dps' : List Dp) (hp : dps.Perm dps') (hnd : (dps.map (·.id)).Nodup)
    (huniq : ∀ d ∈ dps, ∀ e ∈ dps, d.root = true → e.root = true → d.id = e.id) (i : Nat) :
    nominate lag true dps = .dp i ↔ nominate lag true dps' = .dp i := by
  have hnd' : (dps'.map (·.id)).Nodup := (hp.map _).nodup_iff.1 hnd
  have hm : (most lag dps).Perm (most lag dps') := by
    refine (List.perm_ext_iff_of_nodup (nodup_most lag dps hnd) (nodup_most lag dps' hnd')).2 ?_
    intro j
    rw [mem_most lag dps hnd, mem_most lag dps' hnd']
    simp only [hp.mem_iff]
  rw [nominate_cases lag true dps, nominate_cases lag true dps', rootId_perm dps dps' hp huniq,
    hm.length_eq, hm.mem_iff]
  have h1 : most lag dps = [i] ↔ most lag dps' = [i] := by
    constructor
    · intro h; rw [h] at hm; exact List.perm_singleton.1 hm.symm
    · intro h; rw [h] at hm; exact List.perm_singleton.1 hm
  rw [h1]

/-- At most one switch takes itself to be the nominated one. -/
theorem at_most_one_nominated (lag : Nat) (dps dps' : List Dp) (hp : dps.Perm dps') (hnd : (dps.map (·.id)).Nodup)
    (huniq : ∀ d ∈ dps, ∀ e ∈ dps, d.root = true → e.root = true → d.id = e.id) (i j : Nat)
    (hi : isNominated i (nominate lag true dps) = true) (hj : isNominated j (nominate lag true dps') = true) : i = j := by
  have h : ∀ i l, isNominated i (nominate lag true l) = true → nominate lag true l = .dp i := by
    intro i l h
    cases hn : nominate lag true l <;> rw [hn] at h <;> simp [isNominated] at h
    rw [h]
  have h1 := h i dps hi
  have h2 := (switches_agree lag dps dps' hp hnd huniq j).2 (h j dps' hj)
  rw [h1] at h2
  injection h2

/-! ## Cases and defects -/

def exDps : List Dp :=
  [{ id := 1, up := [(5, 1)] }, { id := 2, up := [(5, 2)], root := true }, { id := 3, up := [(5, 2), (6, 1)] }]

example : nominate 5 true exDps = .dp 2 := by decide
example : nominate 6 true exDps = .dp 3 := by decide
example : (exDps.map (·.id)).Nodup ∧ (∀ d ∈ exDps, ∀ e ∈ exDps, d.root = true → e.root = true → d.id = e.id) := by decide

/-- Two switches with equally many members and the root not among them: the switch with the lowest id should be chosen,
but the list itself is returned, so no switch at all is nominated and the bundle is not selected anywhere. -/
theorem tie_nominates_nobody_defect :
    ∃ dps : List Dp, (∃ d ∈ dps, d.root = true) ∧ (∀ d ∈ dps, d.root = false → 0 < members 5 d) ∧
      ∀ i, isNominated i (nominate 5 true dps) = false :=
  ⟨[{ id := 1, up := [(5, 1)] }, { id := 2, up := [(5, 1)] }, { id := 3, root := true }], by decide, by decide,
    fun i => rfl⟩

/-- A switch without any member of the bundle is nominated if a port of another bundle has no synchronization. -/
theorem nominated_without_member_defect :
    ∃ dps : List Dp, ∃ d ∈ dps, nominate 5 true dps = .dp d.id ∧ d.up.get? 5 = none ∧ d.nosync.get? 5 = none :=
  ⟨[{ id := 1 }, { id := 2, nosync := [(6, 1)] }], { id := 2, nosync := [(6, 1)] }, by simp, by decide, by decide,
    by decide⟩

/-- With no other switch known (a stack of one, or all others absent), no switch is nominated. -/
theorem lone_switch_not_nominated_defect :
    ∃ dps : List Dp, (∃ d ∈ dps, d.root = true ∧ 0 < members 5 d) ∧ ∀ i, isNominated i (nominate 5 false dps) = false :=
  ⟨[{ id := 1, up := [(5, 1)], root := true }], by decide, fun i => rfl⟩

end Faucet.Lacp
