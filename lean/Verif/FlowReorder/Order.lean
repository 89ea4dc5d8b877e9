import Verif.FlowReorder.Exec2

/-! Order and idempotence of the reordered batch: helper lemmas for C08 and C09. -/

namespace Faucet.FlowReorder
open Faucet.OF

/-- Stage of a kind. -/
def kindStage : Kind → Nat
  | .config => 0
  | .deleteglobal => 1
  | .delete => 1
  | .tfm => 2
  | .groupadd => 3
  | .meteradd => 4
  | .flowaddmod => 5
  | .other => 6
  | .packetout => 7

theorem stage_kind (m : OfMsg) : stage m = kindStage (msgKind m) := by
  cases m with
  | flow f =>
    obtain ⟨c, t, p, mt, _⟩ := f
    by_cases h : t = tableAll ∧ mt.items = [] <;> cases c <;> simp [stage, msgKind, h, kindStage]
  | group g => obtain ⟨c, i, _⟩ := g; cases c <;> cases i <;> rfl
  | meter g => obtain ⟨c, i, _⟩ := g; cases c <;> cases i <;> rfl
  | _ => rfl

/-- The output as a list of (stage, has barrier, messages). -/
def segments (sh : List OfMsg → List OfMsg) (bar : Bool) (ms dels : List OfMsg) : List (Nat × Bool × List OfMsg) :=
  [(0, bar, seg sh ms .config), (1, bar, seg sh ms .deleteglobal), (1, bar, removeOverlap dels (segAdd sh ms)),
   (2, bar, seg sh ms .tfm), (3, bar, seg sh ms .groupadd), (4, bar, seg sh ms .meteradd),
   (5, false, segAdd sh ms), (6, false, seg sh ms .other), (7, false, segOut sh ms)]

def render (l : List (Nat × Bool × List OfMsg)) : List OfMsg := l.flatMap (fun x => emit x.2.1 x.2.2)

theorem assemble_render (sh : List OfMsg → List OfMsg) (bar : Bool) (ms dels : List OfMsg) :
    assemble sh bar ms dels = render (segments sh bar ms dels) := by
  simp [assemble, render, segments, List.append_assoc]

theorem segments_stage {sh : List OfMsg → List OfMsg} (hsh : ∀ l, (sh l).Perm l) {bar : Bool} {ms dels : List OfMsg}
    (hd : dedupeOverlaps sh false strKey (suppressed ms) = some dels) :
    ∀ x ∈ segments sh bar ms dels, ∀ m ∈ x.2.2, stage m = x.1 := by
  intro x hx m hm
  simp only [segments, List.mem_cons, List.not_mem_nil, or_false] at hx
  rw [stage_kind]
  rcases hx with rfl | rfl | rfl | rfl | rfl | rfl | rfl | rfl | rfl <;> dsimp only at hm
  · rw [(mem_seg hm).2]; rfl
  · rw [(mem_seg hm).2]; rfl
  · rw [(mem_suppressed (mem_dels hd (mem_removeOverlap.1 hm).1)).2]; rfl
  · rw [(mem_seg hm).2]; rfl
  · rw [(mem_seg hm).2]; rfl
  · rw [(mem_seg hm).2]; rfl
  · rw [(mem_segAdd hm).2]; rfl
  · rw [(mem_seg hm).2]; rfl
  · rw [(mem_segOut hsh hm).2]; rfl

theorem segments_sorted (sh : List OfMsg → List OfMsg) (bar : Bool) (ms dels : List OfMsg) :
    (segments sh bar ms dels).Pairwise (fun a b => a.1 ≤ b.1) := by
  simp [segments]

theorem segments_barrier (sh : List OfMsg → List OfMsg) (ms dels : List OfMsg) :
    ∀ x ∈ segments sh true ms dels, x.1 ≤ 4 → x.2.1 = true := by
  intro x hx
  simp only [segments, List.mem_cons, List.not_mem_nil, or_false] at hx
  rcases hx with rfl | rfl | rfl | rfl | rfl | rfl | rfl | rfl | rfl <;> simp

theorem render_sorted (l : List (Nat × Bool × List OfMsg)) (hs : l.Pairwise (fun a b => a.1 ≤ b.1))
    (hst : ∀ x ∈ l, ∀ m ∈ x.2.2, stage m = x.1) :
    ((render l).filter (· ≠ .barrier)).Pairwise (fun a b => stage a ≤ stage b) := by
  induction l with
  | nil => simp [render]
  | cons x l ih =>
    have hc := List.pairwise_cons.1 hs
    have hst' : ∀ y ∈ l, ∀ m ∈ y.2.2, stage m = y.1 := fun y hy => hst y (List.mem_cons_of_mem _ hy)
    simp only [render, List.flatMap_cons, List.filter_append]
    rw [List.pairwise_append]
    refine ⟨?_, ih hc.2 hst', ?_⟩
    · have hall : ∀ m ∈ (emit x.2.1 x.2.2).filter (· ≠ .barrier), stage m = x.1 := by
        intro m hm
        obtain ⟨h1, h2⟩ := List.mem_filter.1 hm
        rcases mem_emit h1 with h | h
        · exact hst x (by simp) m h
        · simp [h.2] at h2
      apply List.pairwise_iff_forall_sublist.2
      intro a b hab
      rw [hall a (hab.subset (by simp)), hall b (hab.subset (by simp))]
      exact Nat.le_refl _
    · intro a ha b hb
      obtain ⟨ha1, ha2⟩ := List.mem_filter.1 ha
      obtain ⟨hb1, hb2⟩ := List.mem_filter.1 hb
      obtain ⟨y, hy, hby⟩ := List.mem_flatMap.1 hb1
      have hsa : stage a = x.1 := by
        rcases mem_emit ha1 with h | h
        · exact hst x (by simp) a h
        · simp [h.2] at ha2
      have hsb : stage b = y.1 := by
        rcases mem_emit hby with h | h
        · exact hst' y hy b h
        · simp [h.2] at hb2
      rw [hsa, hsb]
      exact hc.1 y hy

/-- A barrier separates messages of different stages up to stage 4. -/
theorem render_barrier (l : List (Nat × Bool × List OfMsg))
    (hst : ∀ x ∈ l, ∀ m ∈ x.2.2, stage m = x.1) (hbar : ∀ x ∈ l, x.1 ≤ 4 → x.2.1 = true)
    (a b c : List OfMsg) (x y : OfMsg) (h : render l = a ++ x :: b ++ y :: c) (hx : stage x ≤ 4)
    (hxy : stage x ≠ stage y) (hyb : y ≠ .barrier) : OfMsg.barrier ∈ b := by
  induction l generalizing a with
  | nil => simp [render] at h
  | cons s l ih =>
    have hst' : ∀ y ∈ l, ∀ m ∈ y.2.2, stage m = y.1 := fun y hy => hst y (List.mem_cons_of_mem _ hy)
    have hbar' : ∀ x ∈ l, x.1 ≤ 4 → x.2.1 = true := fun y hy => hbar y (List.mem_cons_of_mem _ hy)
    simp only [render, List.flatMap_cons] at h
    have hxb : x ≠ .barrier := by rintro rfl; simp [stage] at hx
    rw [List.append_assoc] at h
    rcases List.append_eq_append_iff.1 h with ⟨a', ha', hrest⟩ | ⟨c', hc', hrest⟩
    · -- x is beyond this segment
      exact ih hst' hbar' a' (by simpa [render] using hrest)
    · cases c' with
      | nil =>
        simp only [List.nil_append] at hrest
        exact ih hst' hbar' [] (by simpa [render] using hrest.symm)
      | cons x' c'' =>
        simp only [List.cons_append, List.cons.injEq] at hrest
        obtain ⟨hx', hrest⟩ := hrest
        subst hx'
        -- emit = a ++ x :: c''
        have hxin : x ∈ s.2.2 := by
          have : x ∈ emit s.2.1 s.2.2 := by rw [hc']; simp
          rcases mem_emit this with h | h
          · exact h
          · exact absurd h.2 hxb
        have hsx := hst s (by simp) x hxin
        have hsb := hbar s (by simp) (by omega)
        have hemit : emit s.2.1 s.2.2 = s.2.2 ++ [.barrier] := by
          unfold emit
          rw [if_neg (by intro hn; rw [hn] at hxin; cases hxin), hsb]; rfl
        rw [hemit] at hc'
        -- barrier is the last of c''
        have hlast : c'' ≠ [] := by
          rintro rfl
          have := congrArg List.getLast? hc'
          simp at this
          exact hxb this.symm
        have hbarlast : c''.getLast? = some .barrier := by
          have := congrArg List.getLast? hc'
          rw [List.getLast?_append] at this
          simp [List.getLast?_append, List.getLast?_cons] at this
          cases hg : c''.getLast? with
          | none => exact absurd (List.getLast?_eq_none_iff.1 hg) hlast
          | some z => rw [hg] at this; simp at this; rw [← this]
        -- where is y
        have hrest' : b ++ y :: c = c'' ++ render l := by simpa [render] using hrest
        rcases List.append_eq_append_iff.1 hrest' with ⟨b', hb', _⟩ | ⟨b', hb', _⟩
        · cases b' with
          | nil =>
            simp at hb'
            rw [hb'] at hbarlast
            exact List.mem_of_getLast? hbarlast
          | cons z b' =>
            -- y lies in c''
            rename_i hz
            simp only [List.cons_append, List.cons.injEq] at hz
            obtain ⟨rfl, hz⟩ := hz
            exfalso
            have hy : y ∈ s.2.2 ++ [OfMsg.barrier] := by rw [hc', hb']; simp
            rcases List.mem_append.1 hy with hy | hy
            · exact hxy (hsx.trans (hst s (by simp) y hy).symm)
            · simp at hy; exact hyb hy
        · rw [hb']
          exact List.mem_append_left _ (List.mem_of_getLast? hbarlast)

theorem mem_out {sh : List OfMsg → List OfMsg} (hsh : ∀ l, (sh l).Perm l) {bar : Bool} {ms dels : List OfMsg}
    (hd : dedupeOverlaps sh false strKey (suppressed ms) = some dels) {m : OfMsg}
    (h : m ∈ assemble sh bar ms dels) : m ∈ ms ∨ (bar = true ∧ m = .barrier) := by
  simp only [assemble, List.mem_append] at h
  rcases h with (((((((h | h) | h) | h) | h) | h) | h) | h) | h <;> rcases mem_emit h with h | h
  all_goals first
    | exact Or.inr h
    | exact absurd h.1 (by decide)
    | (left; first
        | exact (mem_seg h).1
        | exact (mem_segAdd h).1
        | exact (mem_segOut hsh h).1
        | exact (mem_suppressed (mem_dels hd (mem_removeOverlap.1 h).1)).1)

theorem segOut_exists {sh : List OfMsg → List OfMsg} (hsh : ∀ l, (sh l).Perm l) {ms : List OfMsg} {m : OfMsg}
    (h : m ∈ ms) (hk : msgKind m = .packetout) : ∃ m' ∈ segOut sh ms, strKey m' = strKey m := by
  have hin := mem_ofKind.2 ⟨h, hk⟩
  unfold segOut keepIfEmpty
  split
  · exact ⟨m, hin, rfl⟩
  · obtain ⟨m', h1, h2⟩ := exists_mem_values (key := strKey) hin
    exact ⟨m', by unfold dedupe; simp only [if_true]; exact (hsh _).mem_iff.2 h1, h2⟩

/-! ## Idempotence -/

theorem ofKind_append (a b : List OfMsg) (k : Kind) : ofKind (a ++ b) k = ofKind a k ++ ofKind b k := by
  simp [ofKind]

theorem ofKind_emit {bar : Bool} {L : List OfMsg} {k : Kind} (hk : k ≠ .other) : ofKind (emit bar L) k = ofKind L k := by
  unfold emit
  split
  · rename_i h; rw [h]
  · cases bar <;> simp [ofKind, List.filter_append, msgKind, Ne.symm hk]

theorem ofKind_all {L : List OfMsg} {k : Kind} (h : ∀ m ∈ L, msgKind m = k) : ofKind L k = L := by
  unfold ofKind; exact List.filter_eq_self.2 (fun m hm => by simp [h m hm])

theorem ofKind_none {L : List OfMsg} {k k' : Kind} (h : ∀ m ∈ L, msgKind m = k') (hk : k' ≠ k) : ofKind L k = [] := by
  unfold ofKind; exact List.filter_eq_nil_iff.2 (fun m hm => by simp [h m hm, hk])

theorem filter_isState_emit (bar : Bool) (L : List OfMsg) : (emit bar L).filter isState = L.filter isState := by
  unfold emit
  split
  · rename_i h; rw [h]
  · cases bar <;> simp [List.filter_append, isState]

theorem filter_isState_all {L : List OfMsg} (h : ∀ m ∈ L, isDeletion m = true ∨ isFlowAdd m = true ∨
    msgKind m = .groupadd ∨ msgKind m = .meteradd) : L.filter isState = L := by
  apply List.filter_eq_self.2
  intro m hm
  have := h m hm
  cases m <;> simp [isState, isDeletion, isFlowAdd, msgKind] at this ⊢

theorem filter_isState_none {L : List OfMsg} (h : ∀ m ∈ L, msgKind m = .config ∨ msgKind m = .tfm ∨
    msgKind m = .other ∨ msgKind m = .packetout) : L.filter isState = [] := by
  apply List.filter_eq_nil_iff.2
  intro m hm
  have := h m hm
  cases m with
  | flow f =>
    obtain ⟨c, t, p, mt, _⟩ := f
    exfalso
    by_cases hh : t = tableAll ∧ mt.items = [] <;> cases c <;> simp [msgKind, hh] at this
  | group g => obtain ⟨c, i, _⟩ := g; cases c <;> cases i <;> simp [msgKind] at this
  | meter g => obtain ⟨c, i, _⟩ := g; cases c <;> cases i <;> simp [msgKind] at this
  | _ => simp [isState]

theorem state_of_assemble {sh : List OfMsg → List OfMsg} (hsh : ∀ l, (sh l).Perm l) {bar : Bool} {ms dels : List OfMsg}
    (hd : ∀ m ∈ dels, msgKind m = .delete) :
    (assemble sh bar ms dels).filter isState =
      seg sh ms .deleteglobal ++ removeOverlap dels (segAdd sh ms) ++ seg sh ms .groupadd ++ seg sh ms .meteradd
        ++ segAdd sh ms := by
  simp only [assemble, List.filter_append, filter_isState_emit]
  rw [filter_isState_none (L := seg sh ms .config) (fun m hm => by simp [(mem_seg hm).2]),
    filter_isState_none (L := seg sh ms .tfm) (fun m hm => by simp [(mem_seg hm).2]),
    filter_isState_none (L := seg sh ms .other) (fun m hm => by simp [(mem_seg hm).2]),
    filter_isState_none (L := segOut sh ms) (fun m hm => by simp [(mem_segOut hsh hm).2]),
    filter_isState_all (L := seg sh ms .deleteglobal) (fun m hm => Or.inl (kind_deletion.2 (Or.inr (mem_seg hm).2))),
    filter_isState_all (L := removeOverlap dels (segAdd sh ms))
      (fun m hm => Or.inl (kind_deletion.2 (Or.inl (hd m (mem_removeOverlap.1 hm).1)))),
    filter_isState_all (L := seg sh ms .groupadd) (fun m hm => by simp [(mem_seg hm).2]),
    filter_isState_all (L := seg sh ms .meteradd) (fun m hm => by simp [(mem_seg hm).2]),
    filter_isState_all (L := segAdd sh ms) (fun m hm => Or.inr (Or.inl (kind_flowadd.2 (mem_segAdd hm).2)))]
  simp

theorem ofKind_assemble {sh : List OfMsg → List OfMsg} (hsh : ∀ l, (sh l).Perm l) {bar : Bool} {ms dels : List OfMsg}
    (hd : ∀ m ∈ dels, msgKind m = .delete) :
    ofKind (assemble sh bar ms dels) .deleteglobal = seg sh ms .deleteglobal ∧
    ofKind (assemble sh bar ms dels) .delete = removeOverlap dels (segAdd sh ms) ∧
    ofKind (assemble sh bar ms dels) .groupadd = seg sh ms .groupadd ∧
    ofKind (assemble sh bar ms dels) .meteradd = seg sh ms .meteradd ∧
    ofKind (assemble sh bar ms dels) .flowaddmod = segAdd sh ms := by
  have hs : ∀ k, ∀ m ∈ seg sh ms k, msgKind m = k := fun k m hm => (mem_seg hm).2
  have ha : ∀ m ∈ segAdd sh ms, msgKind m = .flowaddmod := fun m hm => (mem_segAdd hm).2
  have ho : ∀ m ∈ segOut sh ms, msgKind m = .packetout := fun m hm => (mem_segOut hsh hm).2
  have hr : ∀ m ∈ removeOverlap dels (segAdd sh ms), msgKind m = .delete := fun m hm => hd m (mem_removeOverlap.1 hm).1
  refine ⟨?_, ?_, ?_, ?_, ?_⟩
  · simp only [assemble, ofKind_append]
    rw [ofKind_emit (by decide), ofKind_emit (by decide), ofKind_emit (by decide), ofKind_emit (by decide),
      ofKind_emit (by decide), ofKind_emit (by decide), ofKind_emit (by decide), ofKind_emit (by decide),
      ofKind_emit (by decide), ofKind_all (hs .deleteglobal), ofKind_none (hs .config) (by decide), ofKind_none hr (by decide),
      ofKind_none (hs .tfm) (by decide), ofKind_none (hs .groupadd) (by decide), ofKind_none (hs .meteradd) (by decide),
      ofKind_none ha (by decide), ofKind_none (hs .other) (by decide), ofKind_none ho (by decide)]
    simp
  · simp only [assemble, ofKind_append]
    rw [ofKind_emit (by decide), ofKind_emit (by decide), ofKind_emit (by decide), ofKind_emit (by decide),
      ofKind_emit (by decide), ofKind_emit (by decide), ofKind_emit (by decide), ofKind_emit (by decide),
      ofKind_emit (by decide), ofKind_all hr, ofKind_none (hs .config) (by decide), ofKind_none (hs .deleteglobal) (by decide),
      ofKind_none (hs .tfm) (by decide), ofKind_none (hs .groupadd) (by decide), ofKind_none (hs .meteradd) (by decide),
      ofKind_none ha (by decide), ofKind_none (hs .other) (by decide), ofKind_none ho (by decide)]
    simp
  · simp only [assemble, ofKind_append]
    rw [ofKind_emit (by decide), ofKind_emit (by decide), ofKind_emit (by decide), ofKind_emit (by decide),
      ofKind_emit (by decide), ofKind_emit (by decide), ofKind_emit (by decide), ofKind_emit (by decide),
      ofKind_emit (by decide), ofKind_all (hs .groupadd), ofKind_none (hs .config) (by decide), ofKind_none (hs .deleteglobal) (by decide),
      ofKind_none hr (by decide), ofKind_none (hs .tfm) (by decide), ofKind_none (hs .meteradd) (by decide),
      ofKind_none ha (by decide), ofKind_none (hs .other) (by decide), ofKind_none ho (by decide)]
    simp
  · simp only [assemble, ofKind_append]
    rw [ofKind_emit (by decide), ofKind_emit (by decide), ofKind_emit (by decide), ofKind_emit (by decide),
      ofKind_emit (by decide), ofKind_emit (by decide), ofKind_emit (by decide), ofKind_emit (by decide),
      ofKind_emit (by decide), ofKind_all (hs .meteradd), ofKind_none (hs .config) (by decide), ofKind_none (hs .deleteglobal) (by decide),
      ofKind_none hr (by decide), ofKind_none (hs .tfm) (by decide), ofKind_none (hs .groupadd) (by decide),
      ofKind_none ha (by decide), ofKind_none (hs .other) (by decide), ofKind_none ho (by decide)]
    simp
  · simp only [assemble, ofKind_append]
    rw [ofKind_emit (by decide), ofKind_emit (by decide), ofKind_emit (by decide), ofKind_emit (by decide),
      ofKind_emit (by decide), ofKind_emit (by decide), ofKind_emit (by decide), ofKind_emit (by decide),
      ofKind_emit (by decide), ofKind_all ha, ofKind_none (hs .config) (by decide), ofKind_none (hs .deleteglobal) (by decide),
      ofKind_none hr (by decide), ofKind_none (hs .tfm) (by decide), ofKind_none (hs .groupadd) (by decide),
      ofKind_none (hs .meteradd) (by decide), ofKind_none (hs .other) (by decide), ofKind_none ho (by decide)]
    simp

theorem seg_again {sh sh' : List OfMsg → List OfMsg} {ms out : List OfMsg} {k : Kind}
    (h : ofKind out k = seg sh ms k) : seg sh' out k = seg sh ms k := by
  unfold seg at h ⊢
  rw [h]
  refine dedupe_id _ _ _ (dedupe_keys_nodup _ _ _) ?_
  rw [dedupe_false]; exact sortFlows_sorted _

theorem segAdd_again {sh sh' : List OfMsg → List OfMsg} {ms out : List OfMsg}
    (h : ofKind out .flowaddmod = segAdd sh ms) : segAdd sh' out = segAdd sh ms := by
  unfold segAdd at h ⊢
  rw [h]
  refine dedupe_id _ _ _ (dedupe_keys_nodup _ _ _) ?_
  rw [dedupe_false]; exact sortFlows_sorted _

theorem dels_sublist {sh : List OfMsg → List OfMsg} {ms dels : List OfMsg}
    (hd : dedupeOverlaps sh false strKey ms = some dels) : dels.Sublist (dedupe sh false strKey ms) := by
  rw [dedupeOverlaps_eq] at hd
  simp only at hd
  split at hd
  · split at hd
    · cases hd
    · cases hd; exact List.filter_sublist
  · cases hd; exact List.Sublist.refl _

theorem dels_again {sh sh' : List OfMsg → List OfMsg} {ms dels R : List OfMsg}
    (hd : dedupeOverlaps sh false strKey ms = some dels) (hR : R.Sublist dels) :
    dedupeOverlaps sh' false strKey R = some R := by
  have hsub := hR.trans (dels_sublist hd)
  have hid : dedupe sh' false strKey R = R := by
    apply dedupe_id
    · exact (dedupe_keys_nodup sh strKey ms).sublist (hsub.map _)
    · exact List.Pairwise.sublist hsub (by rw [dedupe_false]; exact sortFlows_sorted _)
  rw [dedupeOverlaps_eq]
  simp only [hid]
  split
  · rename_i hc
    -- the first pass took the same branch
    have hids : ∀ t, t ∈ tableIds R → t ∈ tableIds (dedupe sh false strKey ms) := by
      intro t ht
      unfold tableIds at *
      rw [List.mem_eraseDups] at *
      obtain ⟨m, hm, hmt⟩ := List.mem_filterMap.1 ht
      exact List.mem_filterMap.2 ⟨m, hsub.subset hm, hmt⟩
    have hov : ∀ o, o ∈ overlapMatches R → o ∈ overlapMatches (dedupe sh false strKey ms) := by
      intro o ho
      obtain ⟨m, hm, hmo⟩ := List.mem_filterMap.1 ho
      exact List.mem_filterMap.2 ⟨m, hsub.subset hm, hmo⟩
    have hc1 : tableAll ∈ tableIds (dedupe sh false strKey ms) ∧ overlapMatches (dedupe sh false strKey ms) ≠ [] ∧
        (tableIds (dedupe sh false strKey ms)).filter (· ≠ tableAll) ≠ [] := by
      refine ⟨hids _ hc.1, ?_, ?_⟩
      · intro hn
        obtain ⟨o, ho⟩ := List.exists_mem_of_ne_nil _ hc.2.1
        have := hov o ho
        rw [hn] at this; cases this
      · intro hn
        obtain ⟨t, ht⟩ := List.exists_mem_of_ne_nil _ hc.2.2
        have : t ∈ (tableIds (dedupe sh false strKey ms)).filter (· ≠ tableAll) :=
          List.mem_filter.2 ⟨hids _ (List.mem_filter.1 ht).1, (List.mem_filter.1 ht).2⟩
        rw [hn] at this; cases this
    rw [dedupeOverlaps_eq] at hd
    simp only [if_pos hc1] at hd
    split at hd
    · cases hd
    · rename_i hn
      cases hd
      rw [if_neg]
      · congr 1
        apply List.filter_eq_self.2
        intro m hm
        have hk := (List.mem_filter.1 (hR.subset hm)).2
        simp only [keepDel, Bool.or_eq_true] at hk ⊢
        rcases hk with hk | hk
        · exact Or.inl hk
        · right
          unfold noOverlap at *
          simp only [Bool.not_eq_true', List.any_eq_false] at hk ⊢
          exact fun o ho => hk o (hov o ho)
      · intro hany
        apply hn
        obtain ⟨m, hm, hmn⟩ := List.any_eq_true.1 hany
        exact List.any_eq_true.2 ⟨m, hsub.subset hm, hmn⟩
  · rfl

end Faucet.FlowReorder
