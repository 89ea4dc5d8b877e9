import Verif.FlowReorder.Props

/-!
Batches of plain flow deletes and adds, as most managers build them: reordering is invisible to the switch.
-/

namespace Faucet.FlowReorder
open Faucet.OF

/-- A non-strict delete with priority 0 or an add with a priority, in one table, with the cookie `c`. -/
def Simple (c : Nat) (m : OfMsg) : Prop :=
  ∃ f, m = .flow f ∧ f.table ≠ tableAll ∧ f.cookie = c ∧ f.mtch.obj = 0 ∧
    ((f.cmd = .delete ∧ f.priority = 0) ∨ (f.cmd = .add ∧ f.priority ≠ 0))

theorem simple_reorder {sh : List OfMsg → List OfMsg} (hsh : ∀ l, (sh l).Perm l) (bar : Bool) {c : Nat}
    {ms : List OfMsg} (h : ∀ m ∈ ms, Simple c m) :
    ∃ out, reorder sh bar ms = some out ∧ ∀ sw : Switch, sw.execAll out = sw.execAll (deletesFirst ms) := by
  obtain ⟨out, ho⟩ := reorder_total sh bar ms (fun m hm _ => by obtain ⟨f, hf, _⟩ := h m hm; exact ⟨f, hf⟩)
  refine ⟨out, ho, fun sw => reorder_preserves_switch_partial sh hsh bar ms out ho ?_ ?_ ?_ sw⟩
  · intro f hf _ ht
    obtain ⟨g, hg, h1, _⟩ := h _ hf
    cases hg
    exact absurd ht h1
  · intro f g hf hg h1 h2 hs
    obtain ⟨f', hf', a1, a2, a3, a4⟩ := h _ hf
    obtain ⟨g', hg', b1, b2, b3, b4⟩ := h _ hg
    cases hf'; cases hg'
    simp only [FlowMod.slot, Slot.mk.injEq] at hs
    have ha : f.cmd = .add := by
      rcases a4 with a4 | a4
      · simp [isFlowAdd, a4.1] at h1
      · exact a4.1
    have hb : g.cmd = .add := by
      rcases b4 with a4 | a4
      · simp [isFlowAdd, a4.1] at h2
      · exact a4.1
    refine ⟨?_, by rw [a2, b2], by rw [ha, hb]⟩
    cases hm : f.mtch; cases hm2 : g.mtch
    rw [hm] at a3 hs; rw [hm2] at b3 hs
    simp_all
  · intro d a hd ha hdd haa hk
    obtain ⟨f', hf', a1, a2, a3, a4⟩ := h _ hd
    obtain ⟨g', hg', b1, b2, b3, b4⟩ := h _ ha
    cases hf'; cases hg'
    exfalso
    rcases a4 with a4 | a4
    · rcases b4 with b4 | b4
      · simp [isFlowAdd, b4.1] at haa
      · exact b4.2 (by rw [← hk.2.2.1]; exact a4.2)
    · simp [isDeletion, a4.1] at hdd

/-- Where a rule on the switch comes from after a batch of adds and deletes. -/
theorem exec_some {ms : List OfMsg} {c : Nat} (h : ∀ m ∈ ms, Simple c m) (sw : Switch) (s : Slot) (b : Body)
    (hb : (sw.execAll ms).flows s = some b) :
    (∃ f, .flow f ∈ ms ∧ f.cmd = .add ∧ f.slot = s ∧ f.body = b) ∨
    (sw.flows s = some b ∧ (∀ f, .flow f ∈ ms → f.cmd = .delete → f.kills s b = false) ∧
      (∀ f, .flow f ∈ ms → f.cmd = .add → f.slot ≠ s)) := by
  induction ms generalizing sw with
  | nil => right; exact ⟨hb, by simp, by simp⟩
  | cons m ms ih =>
    have hb' : ((sw.exec m).execAll ms).flows s = some b := hb
    rcases ih (fun x hx => h x (List.mem_cons_of_mem _ hx)) (sw.exec m) hb' with ⟨f, hf, h1⟩ | ⟨h1, h2, h3⟩
    · exact Or.inl ⟨f, List.mem_cons_of_mem _ hf, h1⟩
    · obtain ⟨f, rfl, _, _, _, hc⟩ := h m (by simp)
      have he : (OfMsg.flow f).onFlow s (sw.flows s) = some b := h1
      rcases hc with ⟨hc, _⟩ | ⟨hc, _⟩
      · right
        simp only [OfMsg.onFlow, hc] at he
        rw [Option.filter_eq_some_iff] at he
        refine ⟨he.1, ?_, ?_⟩
        · intro g hg hgc
          rcases List.mem_cons.1 hg with hg | hg
          · cases hg; simpa using he.2
          · exact h2 g hg hgc
        · intro g hg hgc
          rcases List.mem_cons.1 hg with hg | hg
          · cases hg; rw [hc] at hgc; cases hgc
          · exact h3 g hg hgc
      · simp only [OfMsg.onFlow, hc] at he
        split at he
        · rename_i hs
          left
          exact ⟨f, by simp, hc, hs, Option.some.inj he⟩
        · rename_i hs
          right
          refine ⟨he, ?_, ?_⟩
          · intro g hg hgc
            rcases List.mem_cons.1 hg with hg | hg
            · cases hg; rw [hc] at hgc; cases hgc
            · exact h2 g hg hgc
          · intro g hg hgc
            rcases List.mem_cons.1 hg with hg | hg
            · cases hg; exact hs
            · exact h3 g hg hgc

/-- After adds only, a slot that was added to, or that had a rule, has one. -/
theorem exec_adds_isSome {ms : List OfMsg} (h : ∀ m ∈ ms, ∃ f, m = .flow f ∧ f.cmd = .add) (sw : Switch) (s : Slot)
    (hs : (sw.flows s).isSome ∨ ∃ f, .flow f ∈ ms ∧ f.slot = s) : ((sw.execAll ms).flows s).isSome := by
  induction ms generalizing sw with
  | nil =>
    rcases hs with hs | ⟨f, hf, _⟩
    · exact hs
    · cases hf
  | cons m ms ih =>
    obtain ⟨f, rfl, hc⟩ := h m (by simp)
    have := ih (fun x hx => h x (List.mem_cons_of_mem _ hx)) (sw.exec (.flow f))
    apply this
    by_cases hfs : f.slot = s
    · left
      show ((OfMsg.flow f).onFlow s (sw.flows s)).isSome
      simp [OfMsg.onFlow, hc, hfs]
    · rcases hs with hs | ⟨g, hg, hgs⟩
      · left
        show ((OfMsg.flow f).onFlow s (sw.flows s)).isSome
        simp [OfMsg.onFlow, hc, hfs, hs]
      · right
        rcases List.mem_cons.1 hg with hg | hg
        · cases hg; exact absurd hgs hfs
        · exact ⟨g, hg, hgs⟩

theorem execAll_append (sw : Switch) (a b : List OfMsg) : sw.execAll (a ++ b) = (sw.execAll a).execAll b := by
  simp [Switch.execAll, List.foldl_append]

/-- An add of the batch is on the switch afterwards. -/
theorem exec_add {ms : List OfMsg} {c : Nat} (h : ∀ m ∈ ms, Simple c m) (sw : Switch) (f : FlowMod)
    (hf : .flow f ∈ ms) (hc : f.cmd = .add) :
    ∃ g, .flow g ∈ ms ∧ g.cmd = .add ∧ g.slot = f.slot ∧
      (sw.execAll (deletesFirst ms)).flows f.slot = some g.body := by
  have hadds : ∀ m ∈ ms.filter (fun m => !isDeletion m), ∃ f, m = .flow f ∧ f.cmd = .add := by
    intro m hm
    obtain ⟨h1, h2⟩ := List.mem_filter.1 hm
    obtain ⟨g, rfl, _, _, _, hg⟩ := h m h1
    refine ⟨g, rfl, ?_⟩
    rcases hg with hg | hg
    · simp [isDeletion, hg.1] at h2
    · exact hg.1
  have hin : .flow f ∈ ms.filter (fun m => !isDeletion m) := by
    refine List.mem_filter.2 ⟨hf, ?_⟩
    simp [isDeletion, hc]
  have hs : ((sw.execAll (deletesFirst ms)).flows f.slot).isSome := by
    unfold deletesFirst
    rw [execAll_append]
    exact exec_adds_isSome hadds _ _ (Or.inr ⟨f, hin, rfl⟩)
  obtain ⟨b, hb⟩ := Option.isSome_iff_exists.1 hs
  have hsub : ∀ m ∈ deletesFirst ms, m ∈ ms := by
    intro m hm
    rcases List.mem_append.1 hm with hm | hm
    · exact (List.mem_filter.1 hm).1
    · exact (List.mem_filter.1 hm).1
  rcases exec_some (fun m hm => h m (hsub m hm)) sw f.slot b hb with ⟨g, h1, h2, h3, h4⟩ | ⟨_, _, h3⟩
  · exact ⟨g, hsub _ h1, h2, h3, by rw [hb, h4]⟩
  · exact absurd rfl (h3 f (List.mem_append_right _ hin) hc)

theorem mem_deletesFirst {ms : List OfMsg} {m : OfMsg} : m ∈ deletesFirst ms ↔ m ∈ ms := by
  unfold deletesFirst
  rw [List.mem_append, List.mem_filter, List.mem_filter]
  cases isDeletion m <;> simp

end Faucet.FlowReorder
