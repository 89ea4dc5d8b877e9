import Verif.FlowReorder.Model

namespace Faucet.FlowReorder
open Faucet.OF

/-! ## Lists -/

theorem nodup_eraseDups {α : Type} [DecidableEq α] : ∀ (n : Nat) (l : List α), l.length ≤ n →
    l.eraseDups.Nodup := by
  intro n
  induction n with
  | zero => intro l h; cases l <;> simp_all
  | succ n ih =>
    intro l h
    cases l with
    | nil => simp
    | cons a l =>
      rw [List.eraseDups_cons, List.nodup_cons]
      constructor
      · simp [List.mem_eraseDups]
      · apply ih
        have := List.length_filter_le (fun b => !b == a) l
        simp at h; omega

theorem flatMap_congr' {α β : Type} {f g : α → List β} {l : List α} (h : ∀ a ∈ l, f a = g a) :
    l.flatMap f = l.flatMap g := by
  induction l with
  | nil => rfl
  | cons a l ih =>
    rw [List.flatMap_cons, List.flatMap_cons, h a (by simp), ih (fun b hb => h b (List.mem_cons_of_mem _ hb))]

theorem filter_eq_max {α : Type} (f : α → Nat) (k : Nat) (l : List α)
    (hs : l.Pairwise (fun a b => f b ≤ f a)) (hk : ∀ a ∈ l, f a ≤ k) :
    l.filter (fun a => f a == k) ++ l.filter (fun a => f a != k) = l := by
  induction l with
  | nil => rfl
  | cons a l ih =>
    have hc := List.pairwise_cons.1 hs
    have hk' : ∀ b ∈ l, f b ≤ k := fun b hb => hk b (List.mem_cons_of_mem _ hb)
    by_cases h : f a = k
    · simp [h]
      exact ih hc.2 hk'
    · have hall : ∀ b ∈ a :: l, f b ≠ k := by
        intro b hb
        rcases List.mem_cons.1 hb with rfl | hb
        · exact h
        · have := hc.1 b hb
          have := hk a (by simp)
          omega
      have h1 : (a :: l).filter (fun a => f a == k) = [] := by
        apply List.filter_eq_nil_iff.2; intro b hb; simpa using hall b hb
      have h2 : (a :: l).filter (fun a => f a != k) = a :: l := by
        apply List.filter_eq_self.2; intro b hb; simpa using hall b hb
      rw [h1, h2]; rfl

theorem flatMap_sorted {α : Type} (f : α → Nat) (ks : List Nat) : ∀ (l : List α),
    ks.Pairwise (fun a b => b < a) → l.Pairwise (fun a b => f b ≤ f a) → (∀ a ∈ l, f a ∈ ks) →
    ks.flatMap (fun k => l.filter (fun a => f a == k)) = l := by
  induction ks with
  | nil =>
    intro l _ _ hm
    cases l with
    | nil => rfl
    | cons a l => exact absurd (hm a (by simp)) (by simp)
  | cons k ks ih =>
    intro l hks hl hm
    have hk := List.pairwise_cons.1 hks
    have hmax : ∀ a ∈ l, f a ≤ k := by
      intro a ha
      rcases List.mem_cons.1 (hm a ha) with h | h
      · omega
      · have := hk.1 _ h; omega
    rw [List.flatMap_cons]
    have hrest : ks.flatMap (fun k' => l.filter (fun a => f a == k')) =
        ks.flatMap (fun k' => (l.filter (fun a => f a != k)).filter (fun a => f a == k')) := by
      apply flatMap_congr'
      intro k' hk'
      rw [List.filter_filter]
      apply List.filter_congr
      intro a _
      have := hk.1 k' hk'
      by_cases h : f a = k'
      · simp [h]; omega
      · simp [h]
    rw [hrest, ih _ hk.2 (hl.sublist List.filter_sublist)]
    · exact filter_eq_max f k l hl hmax
    · intro a ha
      simp at ha
      rcases List.mem_cons.1 (hm a ha.1) with h | h
      · exact absurd h ha.2
      · exact h

/-! ## De-duplication -/

theorem dedupeDict_append (key : OfMsg → Key) (ms : List OfMsg) (m : OfMsg) :
    dedupeDict key (ms ++ [m]) = (dedupeDict key ms).set (key m) m := by
  simp [dedupeDict, List.foldl_append]

theorem list_snoc_induction {α : Type} {P : List α → Prop} (h0 : P [])
    (h1 : ∀ l a, P l → P (l ++ [a])) (l : List α) : P l := by
  have : ∀ l : List α, P l.reverse := by
    intro l
    induction l with
    | nil => exact h0
    | cons a l ih => rw [List.reverse_cons]; exact h1 _ _ ih
  have := this l.reverse
  rwa [List.reverse_reverse] at this

theorem dedupeDict_nodup (key : OfMsg → Key) (ms : List OfMsg) : (dedupeDict key ms).keys.Nodup := by
  induction ms using list_snoc_induction with
  | h0 => simp [dedupeDict, Dict.keys]
  | h1 l a ih => rw [dedupeDict_append]; exact Dict.nodup_keys_set ih _ _

theorem dedupeDict_get (key : OfMsg → Key) (ms : List OfMsg) (k : Key) :
    (dedupeDict key ms).get? k = (ms.filter (fun m => key m = k)).getLast? := by
  induction ms using list_snoc_induction with
  | h0 => simp [dedupeDict]
  | h1 l a ih =>
    rw [dedupeDict_append, Dict.get?_set, List.filter_append]
    by_cases h : key a = k
    · simp [h]
    · simp [h, ih]

theorem mem_dedupeDict {key : OfMsg → Key} {ms : List OfMsg} {k : Key} {m : OfMsg} :
    (k, m) ∈ dedupeDict key ms ↔ (ms.filter (fun m => key m = k)).getLast? = some m := by
  rw [← Dict.get?_eq_some_iff (dedupeDict_nodup key ms), dedupeDict_get]

theorem dedupeDict_key {key : OfMsg → Key} {ms : List OfMsg} {k : Key} {m : OfMsg}
    (h : (k, m) ∈ dedupeDict key ms) : key m = k ∧ m ∈ ms := by
  have := List.mem_of_getLast? (mem_dedupeDict.1 h)
  simp at this
  exact ⟨this.2, this.1⟩

theorem mem_values_dedupe {key : OfMsg → Key} {ms : List OfMsg} {m : OfMsg} :
    m ∈ (dedupeDict key ms).values ↔ (ms.filter (fun x => key x = key m)).getLast? = some m := by
  rw [Dict.mem_values]
  constructor
  · rintro ⟨k, h⟩
    have := (dedupeDict_key h).1
    rw [this]; exact mem_dedupeDict.1 h
  · intro h; exact ⟨key m, mem_dedupeDict.2 h⟩

theorem mem_of_mem_values {key : OfMsg → Key} {ms : List OfMsg} {m : OfMsg}
    (h : m ∈ (dedupeDict key ms).values) : m ∈ ms := by
  obtain ⟨k, hk⟩ := Dict.mem_values.1 h
  exact (dedupeDict_key hk).2

theorem exists_mem_values {key : OfMsg → Key} {ms : List OfMsg} {m : OfMsg} (h : m ∈ ms) :
    ∃ m' ∈ (dedupeDict key ms).values, key m' = key m := by
  have hne : (ms.filter (fun x => key x = key m)) ≠ [] := by
    intro hn
    have := List.filter_eq_nil_iff.1 hn m h
    simp at this
  obtain ⟨m', hm'⟩ : ∃ m', (ms.filter (fun x => key x = key m)).getLast? = some m' :=
    ⟨_, List.getLast?_eq_some_getLast hne⟩
  refine ⟨m', Dict.mem_values.2 ⟨key m, mem_dedupeDict.2 hm'⟩, ?_⟩
  have := List.mem_of_getLast? hm'
  simp at this; exact this.2

theorem values_keys_nodup (key : OfMsg → Key) (ms : List OfMsg) :
    ((dedupeDict key ms).values.map key).Nodup := by
  have : (dedupeDict key ms).values.map key = (dedupeDict key ms).keys := by
    simp only [Dict.values, Dict.keys, List.map_map]
    apply List.map_congr_left
    rintro ⟨k, m⟩ h
    exact (dedupeDict_key h).1
  rw [this]; exact dedupeDict_nodup key ms

theorem set_append_new {κ α : Type} [DecidableEq κ] (d : Dict κ α) (k : κ) (v : α) (h : k ∉ d.keys) :
    d.set k v = d ++ [(k, v)] := by
  induction d with
  | nil => rfl
  | cons e d ih =>
    obtain ⟨k', v'⟩ := e
    simp [Dict.keys] at h
    have h2 : k ∉ Dict.keys d := by simpa [Dict.keys] using h.2
    simp [Dict.set, Ne.symm h.1, ih h2]

theorem set_same {κ α : Type} [DecidableEq κ] (d : Dict κ α) (k : κ) (v : α) (h : d.get? k = some v) :
    d.set k v = d := by
  induction d with
  | nil => simp at h
  | cons e d ih =>
    obtain ⟨k', v'⟩ := e
    by_cases hk : k' = k
    · subst hk; simp [Dict.get?] at h; simp [Dict.set, h]
    · simp [Dict.get?, hk] at h; simp [Dict.set, hk, ih h]

/-- De-duplicating a list without duplicates changes nothing. -/
theorem values_of_nodup (key : OfMsg → Key) (ms : List OfMsg) (h : (ms.map key).Nodup) :
    (dedupeDict key ms).values = ms := by
  have : dedupeDict key ms = ms.map (fun m => (key m, m)) := by
    induction ms using list_snoc_induction with
    | h0 => rfl
    | h1 l a ih =>
      rw [List.map_append, List.nodup_append] at h
      rw [dedupeDict_append, ih h.1, set_append_new]
      · simp
      · simp only [Dict.keys, List.map_map]
        intro hm
        exact h.2.2 (key a) (by simpa [Function.comp_def] using hm) (key a) (by simp) rfl
  rw [this]
  simp [Dict.values, List.map_map, Function.comp_def]

/-! ## Sorting -/

theorem sortLe_total (a b : OfMsg) : sortLe a b ∨ sortLe b a := by
  simp only [sortLe, decide_eq_true_eq]; omega

theorem sortLe_trans (a b c : OfMsg) : sortLe a b → sortLe b c → sortLe a c := by
  simp only [sortLe, decide_eq_true_eq]; omega

theorem sortFlows_sorted (ms : List OfMsg) : (sortFlows ms).Pairwise (fun a b => sortLe a b) :=
  isort_pairwise sortLe_total sortLe_trans ms

theorem sortFlows_of_sorted {ms : List OfMsg} (h : ms.Pairwise (fun a b => sortLe a b)) : sortFlows ms = ms :=
  isort_of_pairwise h

theorem mem_sortFlows {ms : List OfMsg} {m : OfMsg} : m ∈ sortFlows ms ↔ m ∈ ms := mem_isort

theorem dedupe_false (sh : List OfMsg → List OfMsg) (key : OfMsg → Key) (ms : List OfMsg) :
    dedupe sh false key ms = sortFlows (dedupeDict key ms).values := rfl

theorem mem_dedupe_false {sh : List OfMsg → List OfMsg} {key : OfMsg → Key} {ms : List OfMsg} {m : OfMsg} :
    m ∈ dedupe sh false key ms ↔ m ∈ (dedupeDict key ms).values := by
  rw [dedupe_false, mem_sortFlows]

theorem dedupeDict_eq_nil {key : OfMsg → Key} {ms : List OfMsg} :
    (dedupeDict key ms).values = [] ↔ ms = [] := by
  constructor
  · intro h
    cases ms with
    | nil => rfl
    | cons m ms =>
      obtain ⟨m', hm, _⟩ := exists_mem_values (key := key) (ms := m :: ms) (m := m) (by simp)
      rw [h] at hm; cases hm
  · rintro rfl; rfl

theorem dedupe_false_eq_nil {sh : List OfMsg → List OfMsg} {key : OfMsg → Key} {ms : List OfMsg} :
    dedupe sh false key ms = [] ↔ ms = [] := by
  rw [dedupe_false]
  unfold sortFlows
  rw [isort_eq_nil, dedupeDict_eq_nil]

theorem keepIfEmpty_dedupe (sh : List OfMsg → List OfMsg) (key : OfMsg → Key) (ms : List OfMsg) :
    keepIfEmpty ms (dedupe sh false key ms) = dedupe sh false key ms := by
  unfold keepIfEmpty
  split
  · rename_i h; rw [h]; exact dedupe_false_eq_nil.1 h
  · rfl

theorem dedupe_keys_nodup (sh : List OfMsg → List OfMsg) (key : OfMsg → Key) (ms : List OfMsg) :
    ((dedupe sh false key ms).map key).Nodup := by
  rw [dedupe_false]
  exact (List.Perm.map key (isort_perm sortLe _)).nodup_iff.2 (values_keys_nodup key ms)

/-- De-duplicating a sorted list without duplicates changes nothing. -/
theorem dedupe_id (sh : List OfMsg → List OfMsg) (key : OfMsg → Key) (ms : List OfMsg)
    (hn : (ms.map key).Nodup) (hs : ms.Pairwise (fun a b => sortLe a b)) :
    dedupe sh false key ms = ms := by
  rw [dedupe_false, values_of_nodup key ms hn, sortFlows_of_sorted hs]

/-! ## Overlapping deletes -/

/-- The deletes kept by `dedupeOverlaps` when it filters. -/
def keepDel (overlaps : List (List MatchItem)) (m : OfMsg) : Bool :=
  tableId? m == some tableAll || noOverlap overlaps m

theorem table_sorted {ms : List OfMsg} (hs : ms.Pairwise (fun a b => sortLe a b))
    (hsome : ∀ m ∈ ms, (tableId? m).isSome) :
    ms.Pairwise (fun a b => (tableId? b).getD 0 ≤ (tableId? a).getD 0) := by
  refine hs.imp_of_mem ?_
  intro a b ha hb h
  have h1 := hsome a ha
  have h2 := hsome b hb
  cases a <;> simp [tableId?] at h1
  cases b <;> simp [tableId?] at h2
  have h := of_decide_eq_true h
  simp only [sortKey] at h
  simp [tableId?]
  omega

/-- `dedupeOverlaps` either fails, or filters the sorted list. -/
theorem dedupeOverlaps_eq (sh : List OfMsg → List OfMsg) (key : OfMsg → Key) (ms : List OfMsg) :
    dedupeOverlaps sh false key ms =
      (let d := dedupe sh false key ms
       if tableAll ∈ tableIds d ∧ overlapMatches d ≠ [] ∧ (tableIds d).filter (· ≠ tableAll) ≠ [] then
         if d.any (fun m => (tableId? m).isNone) then none
         else some (d.filter (keepDel (overlapMatches d)))
       else some d) := by
  simp only [dedupeOverlaps]
  split
  · rename_i hc
    split
    · rfl
    · rename_i hn
      congr 1
      have hsome : ∀ m ∈ dedupe sh false key ms, (tableId? m).isSome := by
        intro m hm
        cases h : tableId? m with
        | none => exact absurd (List.any_eq_true.2 ⟨m, hm, by simp [h]⟩) hn
        | some t => rfl
      generalize hd : dedupe sh false key ms = d at *
      have hsorted : d.Pairwise (fun a b => sortLe a b) := by
        rw [← hd, dedupe_false]; exact sortFlows_sorted _
      have htab := table_sorted hsorted hsome
      have hids : (isort (fun a b => decide (b ≤ a)) (tableIds d)).Pairwise (fun a b => b < a) := by
        have h1 : (isort (fun a b => decide (b ≤ a)) (tableIds d)).Pairwise
            (fun x y => decide (y ≤ x) = true) :=
          isort_pairwise (by intro a b; simp; omega) (by intro a b c; simp; omega) _
        have h2 : (isort (fun a b => decide (b ≤ a)) (tableIds d)).Nodup :=
          (isort_perm _ _).nodup_iff.2 (nodup_eraseDups _ _ (Nat.le_refl _))
        have h3 := List.Pairwise.and h1 h2
        refine h3.imp ?_
        intro a b h
        simp at h; omega
      have hmem : ∀ m ∈ d, (tableId? m).getD 0 ∈ isort (fun a b => decide (b ≤ a)) (tableIds d) := by
        intro m hm
        have := hsome m hm
        obtain ⟨t, ht⟩ := Option.isSome_iff_exists.1 this
        rw [mem_isort, ht]
        unfold tableIds
        rw [List.mem_eraseDups]
        exact List.mem_filterMap.2 ⟨m, hm, ht⟩
      rw [← flatMap_sorted (fun m => (tableId? m).getD 0) _ (d.filter (keepDel (overlapMatches d))) hids
        (htab.sublist List.filter_sublist) (fun a ha => hmem a (List.mem_filter.1 ha).1)]
      apply flatMap_congr'
      intro t _
      rw [List.filter_filter]
      apply List.filter_congr
      intro m hm
      obtain ⟨t', ht'⟩ := Option.isSome_iff_exists.1 (hsome m hm)
      by_cases htt : t' = t
      · subst htt; simp [ht', keepDel]
      · have hf : (t' == t) = false := by simpa using htt
        simp [ht', hf]
  · rfl

/-! ## The segments of the output -/

/-- De-duplicated messages of a kind. -/
def seg (sh : List OfMsg → List OfMsg) (ms : List OfMsg) (k : Kind) : List OfMsg :=
  dedupe sh false strKey (ofKind ms k)

def segAdd (sh : List OfMsg → List OfMsg) (ms : List OfMsg) : List OfMsg :=
  dedupe sh false flowModKey (ofKind ms .flowaddmod)

def segOut (sh : List OfMsg → List OfMsg) (ms : List OfMsg) : List OfMsg :=
  keepIfEmpty (ofKind ms .packetout) (dedupe sh true strKey (ofKind ms .packetout))

/-- The output, given the deletes that survive the overlap checks among deletes. -/
def assemble (sh : List OfMsg → List OfMsg) (bar : Bool) (ms dels : List OfMsg) : List OfMsg :=
  emit bar (seg sh ms .config) ++ emit bar (seg sh ms .deleteglobal)
    ++ emit bar (removeOverlap dels (segAdd sh ms))
    ++ emit bar (seg sh ms .tfm) ++ emit bar (seg sh ms .groupadd) ++ emit bar (seg sh ms .meteradd)
    ++ emit false (segAdd sh ms) ++ emit false (seg sh ms .other) ++ emit false (segOut sh ms)

theorem dedupeOverlaps_keep {sh : List OfMsg → List OfMsg} {key : OfMsg → Key} {ms out : List OfMsg}
    (h : dedupeOverlaps sh false key ms = some out) : out = [] → ms = [] := by
  intro ho
  subst ho
  rw [dedupeOverlaps_eq] at h
  simp only at h
  split at h
  · rename_i hc
    split at h
    · cases h
    · have h := Option.some.inj h
      exfalso
      obtain ⟨hall, -, -⟩ := hc
      unfold tableIds at hall
      rw [List.mem_eraseDups] at hall
      obtain ⟨m, hm, ht⟩ := List.mem_filterMap.1 hall
      have := List.filter_eq_nil_iff.1 h m hm
      simp [keepDel, ht] at this
  · exact dedupe_false_eq_nil.1 (Option.some.inj h)

theorem removeOverlap_nil (dels : List OfMsg) : removeOverlap dels [] = dels := by
  unfold removeOverlap
  apply List.filter_eq_self.2
  intro m _
  cases flowKey? m <;> simp

theorem reorder_eq (sh : List OfMsg → List OfMsg) (bar : Bool) (ms : List OfMsg) :
    reorder sh bar ms = (dedupeOverlaps sh false strKey (suppressed ms)).map (assemble sh bar ms) := by
  unfold reorder
  cases h : dedupeOverlaps sh false strKey (suppressed ms) with
  | none => rfl
  | some dels =>
    have hk : keepIfEmpty (suppressed ms) dels = dels := by
      unfold keepIfEmpty
      split
      · rename_i hd; rw [hd]; exact dedupeOverlaps_keep h hd
      · rfl
    have hr : (if dels ≠ [] ∧ segAdd sh ms ≠ [] then removeOverlap dels (segAdd sh ms) else dels)
        = removeOverlap dels (segAdd sh ms) := by
      split
      · rfl
      · rename_i hc
        by_cases hd : dels = []
        · subst hd; rfl
        · have : segAdd sh ms = [] := by
            simp [hd] at hc; exact hc
          rw [this, removeOverlap_nil]
    simp only [Option.bind_eq_bind, Option.bind_some, Option.map_some, hk, keepIfEmpty_dedupe]
    show some (emit bar (seg sh ms .config) ++ emit bar (seg sh ms .deleteglobal)
      ++ emit bar (if dels ≠ [] ∧ segAdd sh ms ≠ [] then removeOverlap dels (segAdd sh ms) else dels)
      ++ emit bar (seg sh ms .tfm) ++ emit bar (seg sh ms .groupadd) ++ emit bar (seg sh ms .meteradd)
      ++ emit false (segAdd sh ms) ++ emit false (seg sh ms .other) ++ emit false (segOut sh ms)) = _
    rw [hr]
    rfl

theorem mem_emit {bar : Bool} {ms : List OfMsg} {m : OfMsg} (h : m ∈ emit bar ms) :
    m ∈ ms ∨ (bar = true ∧ m = .barrier) := by
  unfold emit at h
  split at h
  · cases h
  · cases bar <;> simp at h
    · exact Or.inl h
    · rcases h with h | h
      · exact Or.inl h
      · exact Or.inr ⟨rfl, h⟩

theorem mem_emit_of {bar : Bool} {ms : List OfMsg} {m : OfMsg} (h : m ∈ ms) : m ∈ emit bar ms := by
  unfold emit
  split
  · rename_i hn; rw [hn] at h; cases h
  · simp [h]

theorem mem_ofKind {ms : List OfMsg} {k : Kind} {m : OfMsg} : m ∈ ofKind ms k ↔ m ∈ ms ∧ msgKind m = k := by
  simp [ofKind]

theorem mem_seg {sh : List OfMsg → List OfMsg} {ms : List OfMsg} {k : Kind} {m : OfMsg}
    (h : m ∈ seg sh ms k) : m ∈ ms ∧ msgKind m = k :=
  mem_ofKind.1 (mem_of_mem_values (mem_dedupe_false.1 h))

theorem mem_segAdd {sh : List OfMsg → List OfMsg} {ms : List OfMsg} {m : OfMsg}
    (h : m ∈ segAdd sh ms) : m ∈ ms ∧ msgKind m = .flowaddmod :=
  mem_ofKind.1 (mem_of_mem_values (mem_dedupe_false.1 h))

theorem exists_seg {sh : List OfMsg → List OfMsg} {ms : List OfMsg} {m : OfMsg}
    (h : m ∈ ms) : ∃ m' ∈ seg sh ms (msgKind m), strKey m' = strKey m := by
  obtain ⟨m', h1, h2⟩ := exists_mem_values (key := strKey) (mem_ofKind.2 ⟨h, rfl⟩ : m ∈ ofKind ms (msgKind m))
  exact ⟨m', mem_dedupe_false.2 h1, h2⟩

theorem mem_segOut {sh : List OfMsg → List OfMsg} (hsh : ∀ l, (sh l).Perm l) {ms : List OfMsg} {m : OfMsg}
    (h : m ∈ segOut sh ms) : m ∈ ms ∧ msgKind m = .packetout := by
  unfold segOut keepIfEmpty at h
  split at h
  · exact mem_ofKind.1 h
  · unfold dedupe at h
    simp only [if_true] at h
    exact mem_ofKind.1 (mem_of_mem_values ((hsh _).mem_iff.1 h))

theorem mem_suppressed {ms : List OfMsg} {m : OfMsg} (h : m ∈ suppressed ms) : m ∈ ms ∧ msgKind m = .delete := by
  unfold suppressed at h
  simp only at h
  split at h
  · exact mem_ofKind.1 h
  · exact mem_ofKind.1 (List.mem_filter.1 h).1

theorem mem_dels {sh : List OfMsg → List OfMsg} {ms dels : List OfMsg} {m : OfMsg}
    (hd : dedupeOverlaps sh false strKey ms = some dels) (h : m ∈ dels) : m ∈ ms := by
  rw [dedupeOverlaps_eq] at hd
  simp only at hd
  split at hd
  · split at hd
    · cases hd
    · cases hd
      exact mem_of_mem_values (mem_dedupe_false.1 (List.mem_filter.1 h).1)
  · cases hd
    exact mem_of_mem_values (mem_dedupe_false.1 h)

theorem mem_removeOverlap {dels adds : List OfMsg} {m : OfMsg} :
    m ∈ removeOverlap dels adds ↔ m ∈ dels ∧ ∀ k, flowKey? m = some k → ∀ a ∈ adds, flowKey? a ≠ some k := by
  unfold removeOverlap
  rw [List.mem_filter]
  constructor
  · rintro ⟨h1, h2⟩
    refine ⟨h1, ?_⟩
    intro k hk a ha hak
    simp only [hk] at h2
    have : k ∈ adds.filterMap flowKey? := List.mem_filterMap.2 ⟨a, ha, hak⟩
    simp at h2
    exact h2 a ha hak
  · rintro ⟨h1, h2⟩
    refine ⟨h1, ?_⟩
    cases hk : flowKey? m with
    | none => rfl
    | some k =>
      simp
      intro a ha
      exact h2 k hk a ha

end Faucet.FlowReorder
