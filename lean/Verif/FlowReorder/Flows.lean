import Verif.FlowReorder.Spec

/-!
# The flows of a switch after a batch whose flow messages are deletions and plain additions
-/

namespace Faucet.FlowReorder
open Faucet.OF

/-- The flow messages of the batch are deletions and plain additions. -/
def PlainAdds (ms : List OfMsg) : Prop := ∀ f, .flow f ∈ ms → f.cmd ≠ .modifyStrict

/-- Some deletion of the batch removes the flow. -/
def Killed (ms : List OfMsg) (s : Slot) (b : Body) : Prop := ∃ m ∈ ms, isDeletion m = true ∧ m.kills s b = true

theorem kills_deletion {m : OfMsg} {s : Slot} {b : Body} (h : m.kills s b = true) : isDeletion m = true := by
  cases m with
  | flow f =>
    simp only [OfMsg.kills, FlowMod.kills] at h
    simp only [isDeletion]
    cases hc : f.cmd <;> rw [hc] at h <;> first | rfl | simp at h
  | group g =>
    obtain ⟨c, gid, bs⟩ := g
    cases c
    · cases gid <;> simp [OfMsg.kills] at h
    · rfl
  | meter g =>
    obtain ⟨c, gid, bs⟩ := g
    cases c
    · cases gid <;> simp [OfMsg.kills] at h
    · rfl
  | _ => simp [OfMsg.kills] at h

theorem onFlow_deletion {m : OfMsg} (h : isDeletion m = true) (s : Slot) (b : Option Body) :
    m.onFlow s b = b.filter (fun x => !m.kills s x) := by
  cases m with
  | flow f =>
    simp only [isDeletion] at h
    simp only [OfMsg.onFlow, OfMsg.kills]
    cases hc : f.cmd <;> rw [hc] at h <;> first | simp at h | rfl
  | _ => rfl

theorem onFlow_quiet {m : OfMsg} (h : isDeletion m = false) (hf : ∀ f, m ≠ .flow f) (s : Slot) (b : Option Body) :
    m.onFlow s b = b := by
  have hk : ∀ x, m.kills s x = false := by
    intro x
    cases hk : m.kills s x
    · rfl
    · rw [kills_deletion hk] at h; cases h
  cases m with
  | flow f => exact absurd rfl (hf f)
  | _ =>
    simp only [OfMsg.onFlow]
    cases b with
    | none => rfl
    | some x => simp [Option.filter, hk x]

theorem flows_dels (ds : List OfMsg) (h : ∀ m ∈ ds, isDeletion m = true) (sw : Switch) (s : Slot) (b : Body) :
    (sw.execAll ds).flows s = some b ↔ sw.flows s = some b ∧ ∀ m ∈ ds, m.kills s b = false := by
  induction ds generalizing sw with
  | nil => simp [Switch.execAll]
  | cons m ds ih =>
    have he : sw.execAll (m :: ds) = (sw.exec m).execAll ds := rfl
    rw [he, ih (fun x hx => h x (List.mem_cons_of_mem _ hx))]
    have h1 : (sw.exec m).flows s = (sw.flows s).filter (fun x => !m.kills s x) := onFlow_deletion (h m (by simp)) s _
    rw [h1, Option.filter_eq_some_iff]
    simp only [Bool.not_eq_true', List.mem_cons, forall_eq_or_imp]
    constructor
    · rintro ⟨⟨h1, h2⟩, h3⟩; exact ⟨h1, h2, h3⟩
    · rintro ⟨h1, h2, h3⟩; exact ⟨⟨h1, h2⟩, h3⟩

/-- A slot that no addition concerns is left as it is. -/
theorem flows_adds_other (as : List OfMsg) (h : ∀ m ∈ as, isDeletion m = false) (hp : PlainAdds as) (sw : Switch) (s : Slot)
    (hs : ∀ f, .flow f ∈ as → f.slot ≠ s) : (sw.execAll as).flows s = sw.flows s := by
  induction as generalizing sw with
  | nil => rfl
  | cons m as ih =>
    have he : sw.execAll (m :: as) = (sw.exec m).execAll as := rfl
    rw [he, ih (fun x hx => h x (List.mem_cons_of_mem _ hx)) (fun f hf => hp f (List.mem_cons_of_mem _ hf)) _
      (fun f hf => hs f (List.mem_cons_of_mem _ hf))]
    show m.onFlow s (sw.flows s) = sw.flows s
    by_cases hf : ∃ f, m = .flow f
    · obtain ⟨f, rfl⟩ := hf
      have h1 := h (.flow f) (by simp)
      have h2 := hp f (by simp)
      have h3 := hs f (by simp)
      simp only [isDeletion] at h1
      simp only [OfMsg.onFlow]
      cases hc : f.cmd
      · simp only; rw [if_neg h3]
      · exact absurd hc h2
      · rw [hc] at h1; simp at h1
      · rw [hc] at h1; simp at h1
    · exact onFlow_quiet (h m (by simp)) (fun f hm => hf ⟨f, hm⟩) s _

/-- A slot all of whose additions agree has what they say. -/
theorem flows_adds_same (as : List OfMsg) (h : ∀ m ∈ as, isDeletion m = false) (hp : PlainAdds as) (sw : Switch) (s : Slot)
    (bd : Body) (hf : ∃ f, .flow f ∈ as ∧ f.slot = s) (hu : ∀ g, .flow g ∈ as → g.slot = s → g.body = bd) :
    (sw.execAll as).flows s = some bd := by
  induction as generalizing sw with
  | nil => obtain ⟨f, hf, _⟩ := hf; cases hf
  | cons m as ih =>
    have he : sw.execAll (m :: as) = (sw.exec m).execAll as := rfl
    rw [he]
    have h' : ∀ x ∈ as, isDeletion x = false := fun x hx => h x (List.mem_cons_of_mem _ hx)
    have hp' : PlainAdds as := fun f hf => hp f (List.mem_cons_of_mem _ hf)
    by_cases hlater : ∃ g, .flow g ∈ as ∧ g.slot = s
    · exact ih h' hp' _ hlater (fun g hg => hu g (List.mem_cons_of_mem _ hg))
    · rw [flows_adds_other as h' hp' _ s (fun f hf hs => hlater ⟨f, hf, hs⟩)]
      obtain ⟨f, hf, hs⟩ := hf
      rcases List.mem_cons.1 hf with hm | hm
      · subst hm
        show (OfMsg.flow f).onFlow s (sw.flows s) = some bd
        have h1 := h (.flow f) (by simp)
        have h2 := hp f (by simp)
        simp only [isDeletion] at h1
        simp only [OfMsg.onFlow]
        cases hc : f.cmd
        · simp only; rw [if_pos hs, hu f (by simp) hs]
        · exact absurd hc h2
        · rw [hc] at h1; simp at h1
        · rw [hc] at h1; simp at h1
      · exact absurd ⟨f, hm, hs⟩ hlater

theorem plain_filter {ms : List OfMsg} (h : PlainAdds ms) (p : OfMsg → Bool) : PlainAdds (ms.filter p) :=
  fun f hf => h f (List.mem_filter.1 hf).1

theorem execAll_append' (sw : Switch) (a b : List OfMsg) : sw.execAll (a ++ b) = (sw.execAll a).execAll b := by
  simp [Switch.execAll, List.foldl_append]

/-- A slot to which the batch adds, all additions to it agreeing. -/
theorem flows_added {ms : List OfMsg} (hp : PlainAdds ms) (sw : Switch) (s : Slot) (bd : Body)
    (hf : ∃ f, .flow f ∈ ms ∧ f.cmd = .add ∧ f.slot = s)
    (hu : ∀ g, .flow g ∈ ms → g.cmd = .add → g.slot = s → g.body = bd) :
    (sw.execAll (deletesFirst ms)).flows s = some bd := by
  unfold deletesFirst
  rw [execAll_append']
  refine flows_adds_same _ (fun m hm => by simpa using (List.mem_filter.1 hm).2) (plain_filter hp _) _ s bd ?_ ?_
  · obtain ⟨f, h1, h2, h3⟩ := hf
    exact ⟨f, List.mem_filter.2 ⟨h1, by simp [isDeletion, h2]⟩, h3⟩
  · intro g hg hs
    obtain ⟨h1, h2⟩ := List.mem_filter.1 hg
    refine hu g h1 ?_ hs
    have h3 := hp g h1
    simp only [isDeletion] at h2
    cases hc : g.cmd
    · rfl
    · exact absurd hc h3
    · rw [hc] at h2; simp at h2
    · rw [hc] at h2; simp at h2

/-- A slot to which the batch does not add keeps its flow unless a deletion removes it. -/
theorem flows_not_added {ms : List OfMsg} (hp : PlainAdds ms) (sw : Switch) (s : Slot) (b : Body)
    (hf : ∀ f, .flow f ∈ ms → f.cmd = .add → f.slot ≠ s) :
    (sw.execAll (deletesFirst ms)).flows s = some b ↔ sw.flows s = some b ∧ ¬ Killed ms s b := by
  unfold deletesFirst
  rw [execAll_append', flows_adds_other _ (fun m hm => by simpa using (List.mem_filter.1 hm).2) (plain_filter hp _),
    flows_dels _ (fun m hm => (List.mem_filter.1 hm).2)]
  · constructor
    · rintro ⟨h1, h2⟩
      refine ⟨h1, ?_⟩
      rintro ⟨m, hm, hd, hk⟩
      rw [h2 m (List.mem_filter.2 ⟨hm, hd⟩)] at hk
      cases hk
    · rintro ⟨h1, h2⟩
      refine ⟨h1, ?_⟩
      intro m hm
      cases hk : m.kills s b
      · rfl
      · exact absurd ⟨m, (List.mem_filter.1 hm).1, (List.mem_filter.1 hm).2, hk⟩ h2
  · intro f hm
    obtain ⟨h1, h2⟩ := List.mem_filter.1 hm
    refine hf f h1 ?_
    have h3 := hp f h1
    simp only [isDeletion] at h2
    cases hc : f.cmd
    · rfl
    · exact absurd hc h3
    · rw [hc] at h2; simp at h2
    · rw [hc] at h2; simp at h2

end Faucet.FlowReorder
