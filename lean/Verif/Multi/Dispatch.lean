import Verif.Multi.Model

/-! # Several switches: services and sending (C72) -/

namespace Faucet.Multi
open Faucet.OF Faucet.L2

@[simp] theorem put_self {α : Type} (f : Nat → α) (i : Nat) (a : α) : put f i a i = a := by simp [put]

theorem put_ne {α : Type} (f : Nat → α) {i j : Nat} (a : α) (h : j ≠ i) : put f i a j = f j := by simp [put, h]

section Services
variable {σ μ : Type}

theorem keepOne_get? (acc : Dict Nat (List μ)) (e : Nat × List μ) (j : Nat) :
    (keepOne acc e).get? j = if j = e.1 then some e.2 else acc.get? j := by
  unfold keepOne
  simp only
  by_cases h : acc.has e.1 = true
  · rw [if_pos h]
    by_cases hj : j = e.1
    · subst hj; simp
    · rw [if_neg hj, Dict.get?_set_ne _ _ (fun h => hj h.symm), Dict.get?_set_ne _ _ (fun h => hj h.symm)]
  · rw [if_neg h]
    have hn : acc.get? e.1 = none := by
      unfold Dict.has at h
      cases hg : acc.get? e.1 with
      | none => rfl
      | some x => rw [hg] at h; exact absurd rfl h
    by_cases hj : j = e.1
    · subst hj; rw [Dict.get?_set_self, hn]; simp
    · rw [if_neg hj, Dict.get?_set_ne _ _ (fun h => hj h.symm)]

theorem keepAll_get? (j : Nat) (l : Dict Nat (List μ)) (hn : (Dict.keys l).Nodup) :
    ∀ acc : Dict Nat (List μ), Dict.get? (l.foldl keepOne acc) j = match Dict.get? l j with | some ms => some ms | none => acc.get? j := by
  induction l with
  | nil => intro acc; rfl
  | cons e l ih =>
    intro acc
    obtain ⟨k, ms⟩ := e
    have hn' := List.nodup_cons.1 hn
    rw [List.foldl_cons, ih hn'.2, keepOne_get?, Dict.get?_cons]
    by_cases hj : j = k
    · subst hj
      have h0 : Dict.get? l j = none := Dict.get?_eq_none_iff.2 hn'.1
      simp [h0]
    · have hj' : ¬ k = j := fun h => hj h.symm
      simp [hj, hj']

theorem keys_keepOne {acc : Dict Nat (List μ)} (h : acc.keys.Nodup) (e : Nat × List μ) : (keepOne acc e).keys.Nodup := by
  unfold keepOne
  simp only
  split
  · exact Dict.nodup_keys_set (Dict.nodup_keys_set h _ _) _ _
  · exact Dict.nodup_keys_set h _ _

theorem keys_keepAll (l : List (Nat × List μ)) : ∀ {acc : Dict Nat (List μ)}, acc.keys.Nodup → (Dict.keys (l.foldl keepOne acc)).Nodup := by
  induction l with
  | nil => intro acc h; exact h
  | cons e l ih => intro acc h; exact ih (keys_keepOne h e)

theorem serve_fold {run : σ → Bool} {f : σ → Option (Option (List μ) × σ)} (ks : List Nat) (hk : ks.Nodup) :
    ∀ {acc acc' : Dict Nat (List μ)} {cur cur' : Dict Nat σ}, acc.keys.Nodup →
      ks.foldlM (serveOne run (ownService f)) (acc, cur) = some (acc', cur') →
      acc'.keys.Nodup ∧ (∀ id, id ∉ ks → cur'.get? id = cur.get? id ∧ acc'.get? id = acc.get? id) ∧
      ∀ id ∈ ks, ∀ v, cur.get? id = some v → acc.get? id = none →
        ∃ r, f v = some r ∧ cur'.get? id = some r.2 ∧ acc'.get? id = r.1 := by
  induction ks with
  | nil =>
    intro acc acc' cur cur' ha h
    simp only [List.foldlM_nil, Option.pure_def, Option.some.injEq, Prod.mk.injEq] at h
    obtain ⟨rfl, rfl⟩ := h
    exact ⟨ha, fun _ _ => ⟨rfl, rfl⟩, fun _ hx => absurd hx List.not_mem_nil⟩
  | cons k ks ih =>
    intro acc acc' cur cur' ha h
    have hk' := List.nodup_cons.1 hk
    rw [List.foldlM_cons] at h
    obtain ⟨⟨acc1, cur1⟩, h1, h2⟩ := Option.bind_eq_some_iff.1 h
    unfold serveOne at h1
    obtain ⟨⟨o, c1⟩, h3, h4⟩ := Option.map_eq_some_iff.1 h1
    simp only [Prod.mk.injEq] at h4
    obtain ⟨rfl, rfl⟩ := h4
    obtain ⟨i1, i2, i3⟩ := ih hk'.2 (keys_keepAll o ha) h2
    unfold ownService at h3
    -- what the step did
    have hstep : (∀ id, id ≠ k → c1.get? id = cur.get? id ∧ Dict.get? (o.foldl keepOne acc) id = acc.get? id) ∧
        ∀ v, cur.get? k = some v → acc.get? k = none →
          ∃ r, f v = some r ∧ c1.get? k = some r.2 ∧ Dict.get? (o.foldl keepOne acc) k = r.1 := by
      cases hc : cur.get? k with
      | none =>
        simp only [hc, Option.some.injEq, Prod.mk.injEq] at h3
        obtain ⟨rfl, rfl⟩ := h3
        exact ⟨fun _ _ => ⟨rfl, rfl⟩, fun v hv => by cases hv⟩
      | some v =>
        simp only [hc] at h3
        obtain ⟨r, hr, h5⟩ := Option.map_eq_some_iff.1 h3
        simp only [Prod.mk.injEq] at h5
        obtain ⟨h5, rfl⟩ := h5
        refine ⟨?_, ?_⟩
        · intro id hid
          refine ⟨Dict.get?_set_ne _ _ (fun h => hid h.symm), ?_⟩
          subst h5
          cases hr1 : r.1 with
          | none => rfl
          | some ms => simp only [List.foldl_cons, List.foldl_nil]; rw [keepOne_get?, if_neg hid]
        · intro v' hv' hacc
          cases hv'
          refine ⟨r, hr, Dict.get?_set_self _ _ _, ?_⟩
          subst h5
          cases hr1 : r.1 with
          | none => exact hacc
          | some ms => simp only [List.foldl_cons, List.foldl_nil]; rw [keepOne_get?, if_pos rfl]
    refine ⟨i1, ?_, ?_⟩
    · intro id hid
      have hne : id ≠ k := fun h => hid (h ▸ List.mem_cons_self)
      obtain ⟨a, b⟩ := i2 id (fun h => hid (List.mem_cons_of_mem _ h))
      obtain ⟨a', b'⟩ := hstep.1 id hne
      exact ⟨a.trans a', b.trans b'⟩
    · intro id hid v hv hacc
      by_cases hne : id = k
      · subst hne
        obtain ⟨r, r1, r2, r3⟩ := hstep.2 v hv hacc
        obtain ⟨a, b⟩ := i2 id hk'.1
        exact ⟨r, r1, a.trans r2, b.trans r3⟩
      · obtain ⟨a', b'⟩ := hstep.1 id hne
        rcases List.mem_cons.1 hid with h | h
        · exact absurd h hne
        · exact i3 id h v (a'.trans hv) (b'.trans hacc)

theorem serve_fold_keys {run : σ → Bool} {f : σ → Option (Option (List μ) × σ)} (ks : List Nat) :
    ∀ {s s' : Dict Nat (List μ) × Dict Nat σ}, ks.foldlM (serveOne run (ownService f)) s = some s' → s'.2.keys = s.2.keys := by
  induction ks with
  | nil => intro s s' h; cases h; rfl
  | cons k ks ih =>
    intro s s' h
    rw [List.foldlM_cons] at h
    obtain ⟨s1, h1, h2⟩ := Option.bind_eq_some_iff.1 h
    refine (ih h2).trans ?_
    unfold serveOne ownService at h1
    obtain ⟨⟨o, c1⟩, h3, rfl⟩ := Option.map_eq_some_iff.1 h1
    cases hc : s.2.get? k with
    | none => simp only [hc, Option.some.injEq, Prod.mk.injEq] at h3; rw [h3.2]
    | some v =>
      simp only [hc] at h3
      obtain ⟨r, -, h5⟩ := Option.map_eq_some_iff.1 h3
      simp only [Prod.mk.injEq] at h5
      obtain ⟨-, rfl⟩ := h5
      show (s.2.set k r.2).keys = _
      rw [Dict.keys_set, if_pos (Dict.get?_isSome_iff_mem_keys.1 (by rw [hc]; rfl))]

theorem serve_keys {run : σ → Bool} {f : σ → Option (Option (List μ) × σ)} {vs vs' : Dict Nat σ} {out : Dict Nat (List μ)}
    (h : serve run (ownService f) vs = some (out, vs')) : vs'.keys = vs.keys := serve_fold_keys _ h

/-- **C72.** A periodic service of which each call is about one switch only: it is called for every switch exactly once, with
its state as it was, the state it returns is kept, and the messages for the switch are those it returned, all of them. -/
theorem service_reaches_every_switch {run : σ → Bool} {f : σ → Option (Option (List μ) × σ)} {vs vs' : Dict Nat σ}
    {out : Dict Nat (List μ)} (hn : vs.keys.Nodup) (h : serve run (ownService f) vs = some (out, vs')) :
    out.keys.Nodup ∧ (∀ id v, vs.get? id = some v → ∃ r, f v = some r ∧ vs'.get? id = some r.2 ∧ out.get? id = r.1) ∧
    ∀ id, vs.get? id = none → vs'.get? id = none ∧ out.get? id = none := by
  obtain ⟨h1, h2, h3⟩ := serve_fold vs.keys hn (by simp [Dict.keys]) h
  refine ⟨h1, ?_, ?_⟩
  · intro id v hv
    exact h3 id (Dict.get?_isSome_iff_mem_keys.1 (by rw [hv]; rfl)) v hv rfl
  · intro id hid
    obtain ⟨a, b⟩ := h2 id (Dict.get?_eq_none_iff.1 hid)
    exact ⟨a.trans hid, b⟩

/-- **C72.** When services return messages for other switches as well, those of the last call that has any for a switch are
sent to it. -/
theorem service_last_wins {run : σ → Bool} {svc : Nat → List Nat → Dict Nat σ → Option (Dict Nat (List μ) × Dict Nat σ)}
    {s s' : Dict Nat (List μ) × Dict Nat σ} {id : Nat} (hs : ∀ i o c r, svc i o c = some r → r.1.keys.Nodup)
    (h : serveOne run svc s id = some s') : ∃ r, svc id (otherRunning run s.2 id) s.2 = some (r, s'.2) ∧
      ∀ j, s'.1.get? j = match r.get? j with | some ms => some ms | none => s.1.get? j := by
  unfold serveOne at h
  obtain ⟨⟨o, c1⟩, h3, rfl⟩ := Option.map_eq_some_iff.1 h
  exact ⟨o, h3, fun j => keepAll_get? j o (hs _ _ _ _ h3) s.1⟩

/-- `_other_running_valves` are the other switches that are running. -/
theorem mem_otherRunning {run : σ → Bool} {vs : Dict Nat σ} (hn : vs.keys.Nodup) {id j : Nat} :
    j ∈ otherRunning run vs id ↔ j ≠ id ∧ ∃ v, vs.get? j = some v ∧ run v = true := by
  unfold otherRunning
  simp only [List.mem_map, List.mem_filter, Bool.and_eq_true, bne_iff_ne, ne_eq]
  constructor
  · rintro ⟨⟨k, v⟩, ⟨hm, h1, h2⟩, rfl⟩
    exact ⟨h1, v, Dict.get?_of_mem hn hm, h2⟩
  · rintro ⟨h1, v, h2, h3⟩
    exact ⟨(j, v), ⟨Dict.mem_of_get? h2, h1, h3⟩, rfl⟩

end Services

/-! ## Sending -/

/-- **C72.** Every switch gets the messages that are meant for it, if it is connected, and no others. -/
theorem sent {sh : List OfMsg → List OfMsg} {bar conn : Nat → Bool} (out : Out) (hn : (Dict.keys out).Nodup) :
    ∀ {sw sw' : Nat → Switch}, sendAll sh bar conn sw out = some sw' →
    ∀ j, (∃ ms o, Dict.get? out j = some ms ∧ conn j = true ∧ FlowReorder.reorder sh (bar j) ms = some o ∧
        sw' j = (sw j).execAll o) ∨ ((Dict.get? out j = none ∨ conn j = false) ∧ sw' j = sw j) := by
  induction out with
  | nil =>
    intro sw sw' h j
    simp only [sendAll, List.foldlM_nil, Option.pure_def, Option.some.injEq] at h
    subst h
    exact .inr ⟨.inl rfl, rfl⟩
  | cons e out ih =>
    intro sw sw' h j
    obtain ⟨k, ms⟩ := e
    have hn' := List.nodup_cons.1 hn
    unfold sendAll at h
    rw [List.foldlM_cons] at h
    obtain ⟨sw1, h1, h2⟩ := Option.bind_eq_some_iff.1 h
    have hi := ih hn'.2 h2 j
    rw [Dict.get?_cons]
    unfold sendOne at h1
    by_cases hj : k = j
    · subst hj
      have h0 : Dict.get? out k = none := Dict.get?_eq_none_iff.2 hn'.1
      have hi' : sw' k = sw1 k := by
        rcases hi with ⟨x, -, hx, -⟩ | ⟨-, hx⟩
        · rw [h0] at hx; cases hx
        · exact hx
      by_cases hc : conn k = true
      · simp only [hc, if_true] at h1
        obtain ⟨o, ho, rfl⟩ := Option.map_eq_some_iff.1 h1
        exact .inl ⟨ms, o, by simp, hc, ho, by rw [hi', put_self]⟩
      · simp only [hc] at h1
        cases h1
        exact .inr ⟨.inr (by simpa using hc), hi'⟩
    · rw [if_neg hj]
      have hs : sw1 j = sw j := by
        by_cases hc : conn k = true
        · simp only [hc, if_true] at h1
          obtain ⟨o, ho, rfl⟩ := Option.map_eq_some_iff.1 h1
          exact put_ne _ _ (fun h => hj h.symm)
        · simp only [hc] at h1
          cases h1; rfl
      rw [hs] at hi
      exact hi

end Faucet.Multi
