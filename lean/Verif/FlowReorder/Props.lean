import Verif.FlowReorder.Order
import Mathlib.Tactic.ByContra

/-!
# Message reordering: properties C07, C08, C09

`sh` is what `random.shuffle` does to a list: any permutation.
`reorder sh bar ms = none` means that the code raises an exception.
-/

namespace Faucet.FlowReorder
open Faucet.OF

/-! ## C07: reordering preserves the final tables of the switch -/

/-- C07, flows, in its most general true form: every slot that is not shadowed by a delete sharing its key
with an addition ends up as if the batch was sent deletes first.

Missing from the full property: shadowed slots (see `reorder_shadow_defect`), batches that break
`AddsConsistent` (see `reorder_cookie_defect`) and batches that break `WideDeletesPlain`
(see `reorder_outport_defect`): there the property is false of the code. -/
theorem reorder_preserves_flows_partial (sh : List OfMsg → List OfMsg) (hsh : ∀ l, (sh l).Perm l) (bar : Bool)
    (ms out : List OfMsg) (hout : reorder sh bar ms = some out) (hplain : WideDeletesPlain ms)
    (hcons : AddsConsistent ms) (sw : Switch) (s : Slot) (hns : ¬ Shadowed ms s) :
    (sw.execAll out).flows s = (sw.execAll (deletesFirst ms)).flows s :=
  flows_eq hsh hout hplain hcons sw s hns

/-- C07, groups and meters: no conditions on the batch. -/
theorem reorder_preserves_groups_meters (sh : List OfMsg → List OfMsg) (hsh : ∀ l, (sh l).Perm l) (bar : Bool)
    (ms out : List OfMsg) (hout : reorder sh bar ms = some out) (sw : Switch) :
    (sw.execAll out).groups = (sw.execAll (deletesFirst ms)).groups ∧
    (sw.execAll out).meters = (sw.execAll (deletesFirst ms)).meters :=
  groups_meters_eq hsh hout sw

/-- C07, whole switch, when deletes sharing a key with an addition are strict. -/
theorem reorder_preserves_switch_partial (sh : List OfMsg → List OfMsg) (hsh : ∀ l, (sh l).Perm l) (bar : Bool)
    (ms out : List OfMsg) (hout : reorder sh bar ms = some out) (hplain : WideDeletesPlain ms)
    (hcons : AddsConsistent ms) (hstrict : SharedKeysStrict ms) (sw : Switch) :
    sw.execAll out = sw.execAll (deletesFirst ms) := by
  have hg := groups_meters_eq hsh hout sw
  have hf : (sw.execAll out).flows = (sw.execAll (deletesFirst ms)).flows := by
    funext s
    apply flows_eq hsh hout hplain hcons
    rintro ⟨d, a, hd, ha, hdd, haa, hk, hr, hn⟩
    obtain ⟨h1, h2, h3⟩ := hstrict d a hd ha hdd haa hk
    apply hn
    refine ⟨h3, ?_⟩
    obtain ⟨k1, _, k3, k4⟩ := hk
    simp only [reaches, h1, FlowMod.tableOk] at hr
    obtain ⟨r1, r2, r3⟩ := hr
    simp only [Bool.or_eq_true, decide_eq_true_eq, beq_iff_eq] at r1
    have r1' : d.table = s.table := by
      rcases r1 with r1 | r1
      · exact absurd r1 h2
      · exact r1
    cases s
    simp only [FlowMod.slot, Slot.mk.injEq]
    simp only at r1' r2 r3
    exact ⟨by rw [← k4, r1'], by rw [← k3, r2], by rw [← k1, r3]⟩
  cases hx : sw.execAll out
  cases hy : sw.execAll (deletesFirst ms)
  rw [hx, hy] at hg hf
  simp only at hg hf
  rw [hf, hg.1, hg.2]

/-! Non-vacuity: a batch with a global-in-table delete, a strict delete that shares its key with an add, a
duplicate add, a group and a meter meets the conditions. -/

def exM (v : Nat) : Match := ⟨[⟨6, v, none⟩], v⟩
def exAdd (t p v : Nat) (n : Nat) : OfMsg :=
  .flow ⟨.add, t, p, exM v, 5, [.apply [.output n]], none, 0, 0⟩
def exBatch : List OfMsg :=
  [exAdd 3 10 1 4, .packetOut 1, .group ⟨.add, some 7, [[.output 2]]⟩, exAdd 3 10 1 5,
   .flow ⟨.deleteStrict, 3, 10, exM 1, 5, [], none, 0, 0⟩, .flow ⟨.delete, 3, 0, ⟨[], 99⟩, 0, [], none, 0, 0⟩,
   .group ⟨.delete, some 7, []⟩, .meter ⟨.add, some 1, 3⟩]

example : ∃ out, reorder id true exBatch = some out ∧ out.length = 9 := by decide

theorem exBatch_plain : WideDeletesPlain exBatch := by
  intro f hf _ ht
  simp only [exBatch, exAdd, List.mem_cons, OfMsg.flow.injEq, reduceCtorEq, List.not_mem_nil, or_false, false_or] at hf
  rcases hf with rfl | rfl | rfl | rfl <;> simp [tableAll] at ht

theorem exBatch_cons : AddsConsistent exBatch := by
  intro f g hf hg h1 h2 _
  simp only [exBatch, exAdd, List.mem_cons, OfMsg.flow.injEq, reduceCtorEq, List.not_mem_nil, or_false, false_or] at hf hg
  rcases hf with rfl | rfl | rfl | rfl <;> rcases hg with rfl | rfl | rfl | rfl <;>
    simp_all [isFlowAdd]

theorem exBatch_strict : SharedKeysStrict exBatch := by
  intro f g hf hg h1 h2 hk
  simp only [exBatch, exAdd, List.mem_cons, OfMsg.flow.injEq, reduceCtorEq, List.not_mem_nil, or_false, false_or] at hf hg
  rcases hf with rfl | rfl | rfl | rfl <;> rcases hg with rfl | rfl | rfl | rfl <;>
    simp_all [isFlowAdd, isDeletion, SameKey, tableAll]

example (sw : Switch) : ∃ out, reorder id true exBatch = some out ∧
    sw.execAll out = sw.execAll (deletesFirst exBatch) := by
  have h : (reorder id true exBatch).isSome := by decide
  obtain ⟨out, ho⟩ := Option.isSome_iff_exists.1 h
  exact ⟨out, ho, reorder_preserves_switch_partial id (fun _ => List.Perm.refl _) true _ out ho exBatch_plain
    exBatch_cons exBatch_strict sw⟩

def emptySwitch : Switch := ⟨fun _ => none, fun _ => none, fun _ => none⟩

/-- Negation of the unrestricted C07, first defect: a non-strict delete with the same key as an add is
dropped, and a more specific flow survives. -/
theorem reorder_shadow_defect :
    ∃ (ms out : List OfMsg) (sw : Switch) (s : Slot), WideDeletesPlain ms ∧ AddsConsistent ms ∧
      reorder id false ms = some out ∧
      (sw.execAll out).flows s ≠ (sw.execAll (deletesFirst ms)).flows s := by
  let m : Match := exM 1
  let d : FlowMod := ⟨.delete, 3, 10, m, 5, [], none, 0, 0⟩
  let a : FlowMod := ⟨.add, 3, 10, m, 5, [], none, 0, 0⟩
  let old : FlowMod := ⟨.add, 3, 20, ⟨[⟨6, 1, none⟩, ⟨4, 9, none⟩], 2⟩, 5, [], none, 0, 0⟩
  refine ⟨[.flow d, .flow a], [.flow a], emptySwitch.exec (.flow old), old.slot, ?_, ?_, by decide, by decide⟩
  · intro f hf _ ht
    simp only [List.mem_cons, OfMsg.flow.injEq, List.not_mem_nil, or_false] at hf
    rcases hf with rfl | rfl <;> simp [d, a, tableAll] at ht
  · intro f g hf hg h1 h2 _
    simp only [List.mem_cons, OfMsg.flow.injEq, List.not_mem_nil, or_false] at hf hg
    rcases hf with rfl | rfl <;> rcases hg with rfl | rfl <;> simp_all [isFlowAdd, d, a]

/-- Second defect: when the same flow is added with two cookies, then the first again, the wrong one wins. -/
theorem reorder_cookie_defect :
    ∃ (ms out : List OfMsg) (s : Slot), SharedKeysStrict ms ∧ WideDeletesPlain ms ∧
      reorder id false ms = some out ∧
      (emptySwitch.execAll out).flows s ≠ (emptySwitch.execAll (deletesFirst ms)).flows s := by
  let m : Match := exM 1
  let a (c n : Nat) : FlowMod := ⟨.add, 3, 10, m, c, [.apply [.output n]], none, 0, 0⟩
  refine ⟨[.flow (a 1 1), .flow (a 2 2), .flow (a 1 3)], [.flow (a 1 3), .flow (a 2 2)], (a 1 1).slot, ?_, ?_,
    by decide, by decide⟩
  · intro f g hf _ h1
    simp only [List.mem_cons, OfMsg.flow.injEq, List.not_mem_nil, or_false] at hf
    rcases hf with rfl | rfl | rfl <;> simp [a, isDeletion] at h1
  · intro f hf _ ht
    simp only [List.mem_cons, OfMsg.flow.injEq, List.not_mem_nil, or_false] at hf
    rcases hf with rfl | rfl | rfl <;> simp [a, tableAll] at ht

/-- Third defect: a modification with the same key replaces an earlier add, so the flow is never created. -/
theorem reorder_modify_defect :
    ∃ (ms out : List OfMsg) (s : Slot), SharedKeysStrict ms ∧ WideDeletesPlain ms ∧
      reorder id false ms = some out ∧
      (emptySwitch.execAll out).flows s ≠ (emptySwitch.execAll (deletesFirst ms)).flows s := by
  let m : Match := exM 1
  let a (c : FlowCmd) (n : Nat) : FlowMod := ⟨c, 3, 10, m, 1, [.apply [.output n]], none, 0, 0⟩
  refine ⟨[.flow (a .add 1), .flow (a .modifyStrict 2)], [.flow (a .modifyStrict 2)], (a .add 1).slot, ?_, ?_,
    by decide, by decide⟩
  · intro f g hf _ h1
    simp only [List.mem_cons, OfMsg.flow.injEq, List.not_mem_nil, or_false] at hf
    rcases hf with rfl | rfl <;> simp [a, isDeletion] at h1
  · intro f hf _ ht
    simp only [List.mem_cons, OfMsg.flow.injEq, List.not_mem_nil, or_false] at hf
    rcases hf with rfl | rfl <;> simp [a, tableAll] at ht

/-- Fourth defect: a delete in all tables restricted to an output port still suppresses other deletes. -/
theorem reorder_outport_defect :
    ∃ (ms out : List OfMsg) (sw : Switch) (s : Slot), SharedKeysStrict ms ∧ AddsConsistent ms ∧
      reorder id false ms = some out ∧
      (sw.execAll out).flows s ≠ (sw.execAll (deletesFirst ms)).flows s := by
  let d1 : FlowMod := ⟨.delete, tableAll, 0, ⟨[], 1⟩, 5, [], some 3, 0, 0⟩
  let d2 : FlowMod := ⟨.delete, 3, 0, exM 1, 5, [], none, 0, 0⟩
  let old : FlowMod := ⟨.add, 3, 20, exM 1, 5, [], none, 0, 0⟩
  refine ⟨[.flow d1, .flow d2], [.flow d1], emptySwitch.exec (.flow old), old.slot, ?_, ?_, by decide, by decide⟩
  · intro f g _ hg _ h2
    simp only [List.mem_cons, OfMsg.flow.injEq, List.not_mem_nil, or_false] at hg
    rcases hg with rfl | rfl <;> simp [d1, d2, isFlowAdd] at h2
  · intro f g hf hg h1 h2 _
    simp only [List.mem_cons, OfMsg.flow.injEq, List.not_mem_nil, or_false] at hf hg
    rcases hf with rfl | rfl <;> simp_all [isFlowAdd, d1, d2]

/-- Fifth defect: mixing a group delete with an all-table delete and a table delete raises an exception. -/
theorem reorder_raises_defect : ∃ ms, reorder id false ms = none :=
  ⟨[.group ⟨.delete, some 1, []⟩, .flow ⟨.delete, tableAll, 0, exM 1, 5, [], none, 0, 0⟩,
    .flow ⟨.delete, 3, 0, exM 2, 5, [], none, 0, 0⟩], by decide⟩

/-- The exception needs all three of those: a batch without group and meter deletes never raises. -/
theorem reorder_total (sh : List OfMsg → List OfMsg) (bar : Bool) (ms : List OfMsg)
    (h : ∀ m ∈ ms, isDeletion m → ∃ f, m = .flow f) : ∃ out, reorder sh bar ms = some out := by
  rw [reorder_eq]
  cases hd : dedupeOverlaps sh false strKey (suppressed ms) with
  | some d => exact ⟨_, rfl⟩
  | none =>
    exfalso
    rw [dedupeOverlaps_eq] at hd
    simp only at hd
    split at hd
    · split at hd
      · rename_i hany
        obtain ⟨m, hm, hn⟩ := List.any_eq_true.1 hany
        have hm' := mem_suppressed (mem_of_mem_values (mem_dedupe_false.1 hm))
        obtain ⟨f, rfl⟩ := h m hm'.1 (kind_deletion.2 (Or.inl hm'.2))
        simp [tableId?] at hn
      · cases hd
    · cases hd

/-! ## C08: order, and nothing lost -/

/-- C08: messages leave in stages: configuration, deletions, table features, groups, meters, flows, other
messages, packet outs. -/
theorem reorder_staged (sh : List OfMsg → List OfMsg) (hsh : ∀ l, (sh l).Perm l) (bar : Bool)
    (ms out : List OfMsg) (hout : reorder sh bar ms = some out) :
    (out.filter (· ≠ .barrier)).Pairwise (fun a b => stage a ≤ stage b) := by
  rw [reorder_eq] at hout
  obtain ⟨dels, hd, rfl⟩ := Option.map_eq_some_iff.1 hout
  rw [assemble_render]
  exact render_sorted _ (segments_sorted _ _ _ _) (segments_stage hsh hd)

/-- C08: with barriers in use, there is one between any message of the stages up to meters and any message
of another stage after it. -/
theorem reorder_barriers (sh : List OfMsg → List OfMsg) (hsh : ∀ l, (sh l).Perm l)
    (ms out : List OfMsg) (hout : reorder sh true ms = some out) (a b c : List OfMsg) (x y : OfMsg)
    (hsplit : out = a ++ x :: b ++ y :: c) (hx : stage x ≤ 4) (hxy : stage x ≠ stage y) (hy : y ≠ .barrier) :
    OfMsg.barrier ∈ b := by
  rw [reorder_eq] at hout
  obtain ⟨dels, hd, rfl⟩ := Option.map_eq_some_iff.1 hout
  rw [assemble_render] at hsplit
  exact render_barrier _ (segments_stage hsh hd) (segments_barrier _ _ _) a b c x y hsplit hx hxy hy

/-- C08: everything sent was asked for (or is a barrier, if those are in use). -/
theorem reorder_no_invention (sh : List OfMsg → List OfMsg) (hsh : ∀ l, (sh l).Perm l) (bar : Bool)
    (ms out : List OfMsg) (hout : reorder sh bar ms = some out) :
    ∀ m ∈ out, m ∈ ms ∨ (bar = true ∧ m = .barrier) := by
  rw [reorder_eq] at hout
  obtain ⟨dels, hd, rfl⟩ := Option.map_eq_some_iff.1 hout
  exact fun m hm => mem_out hsh hd hm

theorem subsumes_slot_trans {m m' : OfMsg} {d a : FlowMod} (hm' : m' = .flow d) (hs : Subsumes m' m)
    (hdt : d.table ≠ tableAll) (hdd : isDeletion m') (hk : SameKey d a) (ha : isFlowAdd (.flow a)) :
    Subsumes (.flow a) m := by
  subst hm'
  have hna : isFlowAdd (.flow d) = false := by
    simp only [isDeletion, isFlowAdd] at *
    cases hc : d.cmd <;> simp_all
  cases m with
  | flow g =>
    rcases hs with hs | hs
    · right; left
      refine ⟨ha, ?_⟩
      simp only [sameContent, FlowMod.mk.injEq, Match.mk.injEq] at hs
      simp only [FlowMod.slot, Slot.mk.injEq]
      obtain ⟨k1, k2, k3, k4⟩ := hk
      refine ⟨by rw [← k4]; exact hs.2.1, by rw [← k3]; exact hs.2.2.1, by rw [← k1]; exact hs.2.2.2.1.1⟩
    · rcases hs with hs | hs
      · rw [hna] at hs; exact absurd hs.1 (by decide)
      · exact absurd hs.2.2.1 hdt
  | _ => simp [Subsumes, sameContent] at hs

/-- C08: nothing is lost. For each message asked for, a message that makes it unnecessary is sent: the same
one, an addition for the same flow, or a deletion that spans all tables and covers it. -/
theorem reorder_nothing_lost (sh : List OfMsg → List OfMsg) (hsh : ∀ l, (sh l).Perm l) (bar : Bool)
    (ms out : List OfMsg) (hout : reorder sh bar ms = some out) (hadds : AddsInOneTable ms) :
    ∀ m ∈ ms, ∃ m' ∈ out, Subsumes m' m := by
  rw [reorder_eq] at hout
  obtain ⟨dels, hd, rfl⟩ := Option.map_eq_some_iff.1 hout
  intro m hm
  have hother : ∀ k, msgKind m = k → (∀ m' ∈ seg sh ms k, m' ∈ assemble sh bar ms dels) →
      ∃ m' ∈ assemble sh bar ms dels, Subsumes m' m := by
    intro k hk hin
    obtain ⟨m', h1, h2⟩ := exists_seg (sh := sh) hm
    exact ⟨m', hin m' (hk ▸ h1), Or.inl (strKey_sameContent h2)⟩
  have hdel : isDeletion m = true → ∃ m' ∈ assemble sh bar ms dels, Subsumes m' m := by
    intro hk
    obtain ⟨m', h1, h2, h3, _⟩ := dels_subsume (sh := sh) hd hm hk
    rcases h1 with h1 | h1
    · by_cases hr : m' ∈ removeOverlap dels (segAdd sh ms)
      · exact ⟨m', by simp only [assemble, List.mem_append, mem_emit_of (bar := bar) hr, true_or, or_true], h3⟩
      · rw [mem_removeOverlap] at hr
        have hr' : ∃ k, flowKey? m' = some k ∧ ∃ a ∈ segAdd sh ms, flowKey? a = some k := by
          by_contra hcon
          apply hr
          refine ⟨h1, fun k hk a ha he => hcon ⟨k, hk, a, ha, he⟩⟩
        obtain ⟨k, hk', a, ha, hak⟩ := hr'
        cases m' with
        | flow d =>
          cases a with
          | flow f =>
            have hs : SameKey d f := flowKey_same (hk'.trans hak.symm)
            have hfa := kind_flowadd.2 (mem_segAdd ha).2
            have hne := hadds f (mem_segAdd ha).1 hfa
            refine ⟨.flow f, by simp only [assemble, List.mem_append, mem_emit_of (bar := false) ha, true_or, or_true],
              subsumes_slot_trans rfl h3 (by rw [hs.2.2.2]; exact hne) h2 hs hfa⟩
          | _ => simp [flowKey?] at hak
        | _ => simp [flowKey?] at hk'
    · exact ⟨m', by simp only [assemble, List.mem_append, mem_emit_of (bar := bar) h1, true_or, or_true], h3⟩
  cases hk : msgKind m with
  | delete => exact hdel (kind_deletion.2 (Or.inl hk))
  | deleteglobal => exact hdel (kind_deletion.2 (Or.inr hk))
  | flowaddmod =>
    obtain ⟨m', h1, h2⟩ := exists_mem_values (key := flowModKey) (mem_ofKind.2 ⟨hm, hk⟩ : m ∈ ofKind ms .flowaddmod)
    have h1' : m' ∈ segAdd sh ms := mem_dedupe_false.2 h1
    refine ⟨m', by simp only [assemble, List.mem_append, mem_emit_of (bar := false) h1', true_or, or_true], ?_⟩
    have ha := kind_flowadd.2 hk
    have ha' := kind_flowadd.2 (mem_segAdd h1').2
    cases m with
    | flow g =>
      cases m' with
      | flow f =>
        right; left
        refine ⟨ha', ?_⟩
        simp only [flowModKey, flowKey?, Option.getD_some, Key.flow.injEq] at h2
        simp [FlowMod.slot, h2]
      | _ => simp [isFlowAdd] at ha'
    | _ => simp [isFlowAdd] at ha
  | packetout =>
    obtain ⟨m', h1, h2⟩ := segOut_exists hsh hm hk
    exact ⟨m', by simp only [assemble, List.mem_append, mem_emit_of (bar := false) h1, true_or, or_true],
      Or.inl (strKey_sameContent h2)⟩
  | config => exact hother _ hk fun m' h => by simp only [assemble, List.mem_append, mem_emit_of (bar := bar) h, true_or, or_true]
  | tfm => exact hother _ hk fun m' h => by simp only [assemble, List.mem_append, mem_emit_of (bar := bar) h, true_or, or_true]
  | groupadd => exact hother _ hk fun m' h => by simp only [assemble, List.mem_append, mem_emit_of (bar := bar) h, true_or, or_true]
  | meteradd => exact hother _ hk fun m' h => by simp only [assemble, List.mem_append, mem_emit_of (bar := bar) h, true_or, or_true]
  | other => exact hother _ hk fun m' h => by simp only [assemble, List.mem_append, mem_emit_of (bar := false) h, true_or, or_true]

theorem exBatch_adds : AddsInOneTable exBatch := by
  intro f hf _
  simp only [exBatch, exAdd, List.mem_cons, OfMsg.flow.injEq, reduceCtorEq, List.not_mem_nil, or_false, false_or] at hf
  rcases hf with rfl | rfl | rfl | rfl <;> simp [tableAll]

/-- Non-vacuity of C08: the concrete batch is reordered as expected. -/
example : reorder id true exBatch = some
    [.group ⟨.delete, some 7, []⟩, .flow ⟨.delete, 3, 0, ⟨[], 99⟩, 0, [], none, 0, 0⟩, .barrier,
     .group ⟨.add, some 7, [[.output 2]]⟩, .barrier, .meter ⟨.add, some 1, 3⟩, .barrier,
     exAdd 3 10 1 5, .packetOut 1] := by decide

/-! ## C09: reordering is idempotent -/

theorem removeOverlap_twice (a b : List OfMsg) : removeOverlap (removeOverlap a b) b = removeOverlap a b := by
  unfold removeOverlap
  simp only
  rw [List.filter_filter]
  congr 1
  funext m
  exact Bool.and_self _

/-- C09: reordering what has been reordered never raises, and sends the same flow, group and meter messages in
the same order. -/
theorem reorder_idempotent (sh sh' : List OfMsg → List OfMsg) (hsh : ∀ l, (sh l).Perm l)
    (hsh' : ∀ l, (sh' l).Perm l) (bar bar' : Bool) (ms out : List OfMsg) (hout : reorder sh bar ms = some out) :
    ∃ out', reorder sh' bar' out = some out' ∧ out'.filter isState = out.filter isState := by
  rw [reorder_eq] at hout
  obtain ⟨dels, hd, rfl⟩ := Option.map_eq_some_iff.1 hout
  have hdk : ∀ m ∈ dels, msgKind m = .delete := fun m hm => (mem_suppressed (mem_dels hd hm)).2
  obtain ⟨k1, k2, k3, k4, k5⟩ := ofKind_assemble (sh := sh) hsh (bar := bar) (ms := ms) hdk
  have hsup : suppressed (assemble sh bar ms dels) = removeOverlap dels (segAdd sh ms) := by
    unfold suppressed
    simp only [k1, k2]
    split
    · rfl
    · rename_i hne
      apply List.filter_eq_self.2
      intro m hm
      have hms := mem_dels hd (mem_removeOverlap.1 hm).1
      have hne' : ofKind ms .deleteglobal ≠ [] := by
        intro hn
        obtain ⟨x, hx⟩ := List.exists_mem_of_ne_nil _ hne
        have := mem_ofKind.2 (mem_seg hx)
        rw [hn] at this; cases this
      unfold suppressed at hms
      simp only [if_neg hne'] at hms
      have h2 := (List.mem_filter.1 hms).2
      simp only [Bool.not_eq_true', List.contains_eq_mem, decide_eq_false_iff_not] at h2 ⊢
      intro hc
      apply h2
      obtain ⟨x, hx, hxt⟩ := List.mem_map.1 hc
      exact List.mem_map.2 ⟨x, mem_ofKind.2 (mem_seg hx), hxt⟩
  have hR : (removeOverlap dels (segAdd sh ms)).Sublist dels := by unfold removeOverlap; exact List.filter_sublist
  have hd' := dels_again (sh' := sh') hd hR
  rw [← hsup] at hd'
  refine ⟨_, by rw [reorder_eq, hd']; rfl, ?_⟩
  rw [hsup, state_of_assemble hsh' (fun m hm => hdk m (mem_removeOverlap.1 hm).1), state_of_assemble hsh hdk,
    seg_again k1, seg_again k3, seg_again k4, segAdd_again k5, removeOverlap_twice]

example : ∃ out, reorder List.reverse true exBatch = some out ∧
    ∃ out', reorder id false out = some out' ∧ out'.filter isState = out.filter isState := by
  have h : (reorder List.reverse true exBatch).isSome := by decide
  obtain ⟨out, ho⟩ := Option.isSome_iff_exists.1 h
  exact ⟨out, ho, reorder_idempotent _ _ (fun l => List.reverse_perm l) (fun _ => List.Perm.refl _) true false _ _ ho⟩

end Faucet.FlowReorder
