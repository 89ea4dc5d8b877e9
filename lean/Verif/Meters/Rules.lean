import Verif.Meters.Props
import Verif.FlowReorder.Flows

/-!
# Rules with meters, across reloads

A switch drops the flows that use a meter when the meter is deleted (OpenFlow 1.3.5, 6.8).
-/

namespace Faucet.Meters
open Faucet.OF Faucet.FlowReorder

/-- The flow is subject to a meter. -/
def Metered (b : Body) : Prop := ∃ g, Inst.meter g ∈ b.inst

/-- The batch has a message that makes or changes this flow. -/
def Makes (ms : List OfMsg) (t : Slot) : Prop := ∃ f, .flow f ∈ ms ∧ (f.cmd = .add ∨ f.cmd = .modifyStrict) ∧ f.slot = t

theorem delAll_kills {t : Slot} {b : Body} (h : Metered b) : delAll.kills t b = true := by
  obtain ⟨g, hg⟩ := h
  exact List.any_eq_true.2 ⟨_, hg, rfl⟩

/-- Without a message that makes it, a flow that is there after the batch was there before and no message deletes it. -/
theorem survived {ms : List OfMsg} {t : Slot} (hno : ¬ Makes ms t) {b b0 : Option Body} {x : Body}
    (h : ms.foldl (fun b m => m.onFlow t b) b0 = b) (hb : b = some x) : b0 = some x ∧ ∀ m ∈ ms, m.kills t x = false := by
  induction ms generalizing b0 with
  | nil => exact ⟨by rw [← hb, ← h]; rfl, fun m hm => by cases hm⟩
  | cons m ms ih =>
    rw [List.foldl_cons] at h
    have hno' : ¬ Makes ms t := fun ⟨f, hf, h⟩ => hno ⟨f, List.mem_cons_of_mem _ hf, h⟩
    obtain ⟨h1, h2⟩ := ih hno' h
    have key : b0 = some x ∧ m.kills t x = false := by
      cases hd : isDeletion m with
      | true =>
        rw [FlowReorder.onFlow_deletion hd] at h1
        cases b0 with
        | none => cases h1
        | some y =>
          rw [Option.filter_some] at h1
          split at h1
          · rename_i hk
            cases h1
            exact ⟨rfl, by simpa using hk⟩
          · cases h1
      | false =>
        have hk : m.kills t x = false := by
          cases hk : m.kills t x with
          | false => rfl
          | true => rw [Faucet.FlowReorder.kills_deletion hk] at hd; cases hd
        cases m with
        | flow f =>
          have hs : f.slot ≠ t := fun hs => by
            apply hno
            refine ⟨f, List.mem_cons_self, ?_, hs⟩
            cases hc : f.cmd with
            | add => exact Or.inl rfl
            | modifyStrict => exact Or.inr rfl
            | delete => simp [isDeletion, hc] at hd
            | deleteStrict => simp [isDeletion, hc] at hd
          refine ⟨?_, hk⟩
          simp only [OfMsg.onFlow] at h1
          cases hc : f.cmd <;> simp only [hc] at h1
          · rwa [if_neg hs] at h1
          · rwa [if_neg hs] at h1
          · simp [isDeletion, hc] at hd
          · simp [isDeletion, hc] at hd
        | _ => exact ⟨by rw [Faucet.FlowReorder.onFlow_quiet hd (fun f h => by cases h)] at h1; exact h1, hk⟩
    exact ⟨key.1, fun m' hm' => by
      rcases List.mem_cons.1 hm' with rfl | hm'
      · exact key.2
      · exact h2 m' hm'⟩

/-- A delete of all meters leaves as it is. -/
theorem delAll_sent {sh : List OfMsg → List OfMsg} (hsh : ∀ l, (sh l).Perm l) {bar : Bool} {ms out : List OfMsg}
    (hout : reorder sh bar ms = some out) (hm : delAll ∈ ms) : delAll ∈ out := by
  rw [reorder_eq] at hout
  obtain ⟨dels, hd, rfl⟩ := Option.map_eq_some_iff.1 hout
  obtain ⟨m', h1, h2⟩ := exists_seg (sh := sh) hm
  have : m' = delAll := strKey_nonflow h2 (fun f h => by cases h)
  subst this
  have hk : msgKind delAll = .deleteglobal := rfl
  rw [hk] at h1
  unfold assemble
  simp only [List.mem_append]
  have := mem_emit_of (bar := bar) h1
  tauto

/-- C78: when a reload that is no cold start removes or changes a meter, every rule with a meter, any meter, is gone from the switch
unless the reload itself makes the rule again: which it does only for rules of ports and VLANs that changed. -/
theorem metered_rules_lost {s s' : St} {new : Cfg} {e : Extra} (hn : Valid new) (hrun : s.running = true)
    (hgone : ∃ x ∈ s.cfg.meters, x ∉ new.meters) (hs : step s (.reload new false e) = some s') (hrun' : s'.running = true)
    {t : Slot} (hno : ¬ Makes e.others t) {b : Body} (hb : Metered b) : s'.sw.flows t ≠ some b := by
  intro hfl
  simp only [step] at hs
  split at hs
  · cases hs; cases hrun'
  · obtain ⟨sw, h1, h2⟩ := Option.map_eq_some_iff.1 hs
    subst h2
    unfold send at h1
    obtain ⟨out, hout, h3⟩ := Option.map_eq_some_iff.1 h1
    subst h3
    obtain ⟨⟨n, m⟩, hx, hx'⟩ := hgone
    have hmem := (mem_olds (old := s.cfg) hn).2 ⟨hx, hx'⟩
    have hdel : delAll ∈ warmMsgs s.cfg new ++ e.others :=
      List.mem_append_left _ (List.mem_append_left _ (List.mem_map.2 ⟨_, hmem, rfl⟩))
    have hnoout : ¬ Makes out t := by
      rintro ⟨f, hf, hc⟩
      rcases reorder_no_invention e.sh e.perm e.bar _ out hout _ hf with hf | ⟨_, hf⟩
      · rcases List.mem_append.1 hf with hf | hf
        · rcases List.mem_append.1 hf with hf | hf
          · obtain ⟨y, _, hy⟩ := List.mem_map.1 hf; cases hy
          · obtain ⟨y, _, hy⟩ := List.mem_map.1 hf; cases hy
        · exact hno ⟨f, hf, hc⟩
      · cases hf
    simp only [execAll_flows] at hfl
    have := (survived hnoout rfl hfl).2 _ (delAll_sent e.perm hout hdel)
    rw [delAll_kills hb] at this
    cases this

/-- The batch deletes the flow: by a flow message, or with a group. -/
def Unmakes (ms : List OfMsg) (t : Slot) (b : Body) : Prop := ∃ m ∈ ms, m.kills t b = true

theorem stays {ms : List OfMsg} {t : Slot} {x : Body} (hno : ¬ Makes ms t) (hk : ¬ Unmakes ms t x) :
    ms.foldl (fun b m => m.onFlow t b) (some x) = some x := by
  induction ms with
  | nil => rfl
  | cons m ms ih =>
    rw [List.foldl_cons]
    have hno' : ¬ Makes ms t := fun ⟨f, hf, h⟩ => hno ⟨f, List.mem_cons_of_mem _ hf, h⟩
    have hk' : ¬ Unmakes ms t x := fun ⟨f, hf, h⟩ => hk ⟨f, List.mem_cons_of_mem _ hf, h⟩
    have hkm : m.kills t x = false := by
      cases h : m.kills t x with
      | false => rfl
      | true => exact absurd ⟨m, List.mem_cons_self, h⟩ hk
    have : m.onFlow t (some x) = some x := by
      cases hd : isDeletion m with
      | true =>
        rw [FlowReorder.onFlow_deletion hd, Option.filter_some, hkm]
        rfl
      | false =>
        cases m with
        | flow f =>
          have hs : f.slot ≠ t := fun hs => by
            apply hno
            refine ⟨f, List.mem_cons_self, ?_, hs⟩
            cases hc : f.cmd with
            | add => exact Or.inl rfl
            | modifyStrict => exact Or.inr rfl
            | delete => simp [isDeletion, hc] at hd
            | deleteStrict => simp [isDeletion, hc] at hd
          simp only [OfMsg.onFlow]
          cases hc : f.cmd <;> simp only
          · rw [if_neg hs]
          · rw [if_neg hs]
          · simp [isDeletion, hc] at hd
          · simp [isDeletion, hc] at hd
        | _ => exact Faucet.FlowReorder.onFlow_quiet hd (fun f h => by cases h) _ _
    rw [this]
    exact ih hno' hk'

/-- C78: a reload that removes and changes no meter leaves every rule with a meter on the switch, unless one of its messages about
flows or groups is about that rule. -/
theorem metered_rules_kept {s s' : St} {new : Cfg} {o : Bool} {e : Extra} (hn : Valid new)
    (hkeep : ∀ x ∈ s.cfg.meters, x ∈ new.meters) (hs : step s (.reload new o e) = some s')
    {t : Slot} {b : Body} (hno : ¬ Makes e.others t) (hk : ¬ Unmakes e.others t b) (hb : s.sw.flows t = some b) :
    s'.sw.flows t = some b := by
  simp only [step] at hs
  split at hs
  · cases hs; exact hb
  · split at hs
    · obtain ⟨sw, h1, h2⟩ := Option.map_eq_some_iff.1 hs
      subst h2
      unfold send at h1
      obtain ⟨out, hout, h3⟩ := Option.map_eq_some_iff.1 h1
      subst h3
      have hd : deleted s.cfg new ++ changedOld s.cfg new = [] :=
        List.eq_nil_iff_forall_not_mem.2 (fun x hx => by
          obtain ⟨n, m⟩ := x
          have := (mem_olds hn).1 hx
          exact this.2 (hkeep _ this.1))
      have hin : ∀ m ∈ out, m ∈ e.others ∨ m = .barrier ∨ ∃ y, m = addMsg y := by
        intro m hm
        rcases reorder_no_invention e.sh e.perm e.bar _ out hout _ hm with hm | ⟨_, hm⟩
        · rcases List.mem_append.1 hm with hm | hm
          · unfold warmMsgs at hm
            rw [hd, List.map_nil, List.nil_append] at hm
            obtain ⟨y, _, hy⟩ := List.mem_map.1 hm
            exact Or.inr (Or.inr ⟨_, hy.symm⟩)
          · exact Or.inl hm
        · exact Or.inr (Or.inl hm)
      simp only [execAll_flows, hb]
      refine stays ?_ ?_
      · rintro ⟨f, hf, hc⟩
        rcases hin _ hf with hf | hf | ⟨y, hf⟩
        · exact hno ⟨f, hf, hc⟩
        · cases hf
        · cases hf
      · rintro ⟨m, hm, hkm⟩
        rcases hin _ hm with hm | rfl | ⟨y, rfl⟩
        · exact hk ⟨m, hm, hkm⟩
        · cases hkm
        · cases hkm
    · cases hs; exact hb

end Faucet.Meters
