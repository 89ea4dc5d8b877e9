import Verif.FlowReorder.Exec2
import Verif.FlowReorder.Flows

/-! Which flows are there after a reordered batch: helper lemmas for the areas that model a whole switch. -/

namespace Faucet.FlowReorder
open Faucet.OF

theorem keeps_nondeletion {m : OfMsg} (h : isDeletion m = false) {s : Slot} {b : Option Body} (hb : b ≠ none) :
    m.onFlow s b ≠ none := by
  obtain ⟨x, rfl⟩ := Option.ne_none_iff_exists'.1 hb
  cases m with
  | flow f =>
    cases hc : f.cmd with
    | add => simp only [OfMsg.onFlow, hc]; split <;> simp
    | modifyStrict => simp only [OfMsg.onFlow, hc]; split <;> simp
    | delete => simp [isDeletion, hc] at h
    | deleteStrict => simp [isDeletion, hc] at h
  | _ => rw [onFlow_quiet h (by intro f; simp)]; simp

theorem foldl_keeps {ms : List OfMsg} {s : Slot} (h : ∀ m ∈ ms, ∀ b, b ≠ none → m.onFlow s b ≠ none) :
    ∀ {b : Option Body}, b ≠ none → ms.foldl (fun b m => m.onFlow s b) b ≠ none := by
  induction ms with
  | nil => intro b hb; exact hb
  | cons m ms ih =>
    intro b hb
    exact ih (fun x hx => h x (List.mem_cons_of_mem _ hx)) (h m List.mem_cons_self b hb)

/-- A flow that the batch adds is there afterwards, if the batch does not also modify it. -/
theorem added_present {sh : List OfMsg → List OfMsg} (hsh : ∀ l, (sh l).Perm l) {bar : Bool} {ms out : List OfMsg}
    (hout : reorder sh bar ms = some out) {f : FlowMod} (hf : .flow f ∈ ms) (hadd : f.cmd = .add)
    (hmod : ∀ g, .flow g ∈ ms → g.slot = f.slot → g.cmd ≠ .modifyStrict) (sw : Switch) :
    (sw.execAll out).flows f.slot ≠ none := by
  rw [reorder_eq] at hout
  obtain ⟨dels, hd, rfl⟩ := Option.map_eq_some_iff.1 hout
  have hk : msgKind (.flow f) = .flowaddmod := kind_flowadd.1 (by simp [isFlowAdd, hadd])
  obtain ⟨m', h1, h2⟩ := exists_mem_values (key := flowModKey) (mem_ofKind.2 ⟨hf, hk⟩ : OfMsg.flow f ∈ ofKind ms .flowaddmod)
  have h3 : m' ∈ segAdd sh ms := mem_dedupe_false.2 h1
  obtain ⟨hm, hk'⟩ := mem_segAdd h3
  have hslot : ∃ g, m' = .flow g ∧ g.slot = f.slot ∧ g.cmd = .add := by
    cases m' with
    | flow g =>
      have hs : g.slot = f.slot := by
        simp [flowModKey, flowKey?] at h2
        simp [FlowMod.slot, h2]
      refine ⟨g, rfl, hs, ?_⟩
      have hne := hmod g hm hs
      have ha := kind_flowadd.2 hk'
      cases hc : g.cmd with
      | add => rfl
      | modifyStrict => exact absurd hc hne
      | delete => simp [isFlowAdd, hc] at ha
      | deleteStrict => simp [isFlowAdd, hc] at ha
    | _ => have := kind_flowadd.2 hk'; simp [isFlowAdd] at this
  obtain ⟨g, rfl, hgs, hgc⟩ := hslot
  have h4 : OfMsg.flow g ∈ post sh bar ms := by
    simp only [post, List.mem_append]
    exact Or.inl (Or.inl (Or.inr (mem_emit_of h3)))
  rw [assemble_eq, execAll_flows, List.foldl_append]
  generalize (pre sh bar ms dels).foldl (fun b m => m.onFlow f.slot b) (sw.flows f.slot) = b0
  have hnd : ∀ m ∈ post sh bar ms, isDeletion m = false := fun m hm => post_not_deletion hsh hm
  obtain ⟨x, y, hxy⟩ := List.append_of_mem h4
  rw [hxy] at hnd ⊢
  rw [List.foldl_append, List.foldl_cons]
  apply foldl_keeps
  · intro m hm b hb
    exact keeps_nondeletion (hnd m (by simp [hm])) hb
  · simp [OfMsg.onFlow, hgc, hgs]

end Faucet.FlowReorder
