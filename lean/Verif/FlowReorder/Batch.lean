import Verif.FlowReorder.Present
import Mathlib.Tactic.ByContra

/-! A batch that deletes and modifies first and adds later: which flows are there after it was reordered. -/

namespace Faucet.FlowReorder
open Faucet.OF

/-- The deletion has an addition or modification with the same key in the batch: it is dropped. -/
def Dropped (ms : List OfMsg) (d : FlowMod) : Prop :=
  ∃ a, .flow a ∈ ms ∧ isFlowAdd (.flow a) = true ∧ a.slot = d.slot

/-- The batch first deletes and modifies, then adds and deletes. -/
structure Phased (A B : List OfMsg) : Prop where
  first : ∀ f, .flow f ∈ A → f.cmd ≠ .add
  second : ∀ f, .flow f ∈ B → f.cmd ≠ .modifyStrict
  keys : UniformKeys (A ++ B)
  narrow : ∀ f, .flow f ∈ A ++ B → f.table ≠ tableAll
  flows : ∀ m ∈ A ++ B, ∃ f, m = .flow f

theorem Phased.last {A B : List OfMsg} (h : Phased A B) {s : Slot} {f : FlowMod} (hf : .flow f ∈ A ++ B) (hs : f.slot = s)
    (hc : f.cmd = .add) {m : OfMsg} (hl : ((A ++ B).filter (forSlot s)).getLast? = some m) : ∃ g, m = .flow g ∧ g.cmd = .add := by
  have hfB : .flow f ∈ B := by
    rcases List.mem_append.1 hf with hf | hf
    · exact absurd hc (h.first f hf)
    · exact hf
  have hne : B.filter (forSlot s) ≠ [] := by
    intro h0
    have := List.filter_eq_nil_iff.1 h0 _ hfB
    exact this (forSlot_iff.2 ⟨f, rfl, hs, by simp [isFlowAdd, hc]⟩)
  rw [List.filter_append, List.getLast?_append] at hl
  rw [List.getLast?_eq_some_getLast hne] at hl
  simp only [Option.some_or, Option.some.injEq] at hl
  have hm : m ∈ B.filter (forSlot s) := by rw [← hl]; exact List.getLast_mem hne
  obtain ⟨h1, h2⟩ := List.mem_filter.1 hm
  obtain ⟨g, rfl, -, hga⟩ := forSlot_iff.1 h2
  refine ⟨g, rfl, ?_⟩
  have := h.second g h1
  cases hc : g.cmd with
  | add => rfl
  | modifyStrict => exact absurd hc this
  | delete => simp [isFlowAdd, hc] at hga
  | deleteStrict => simp [isFlowAdd, hc] at hga

theorem foldl_same {m0 : OfMsg} {s : Slot} (hf : ∃ g, m0 = .flow g ∧ (g.cmd = .add ∨ g.cmd = .modifyStrict)) :
    ∀ (l : List OfMsg), (∀ m ∈ l, m = m0) → ∀ b, l.foldl (fun b m => m.onFlow s b) b = b ∨ l.foldl (fun b m => m.onFlow s b) b = m0.onFlow s b := by
  intro l
  induction l with
  | nil => intro _ b; exact Or.inl rfl
  | cons m l ih =>
    intro h b
    obtain rfl := h m List.mem_cons_self
    obtain ⟨g, rfl, hg⟩ := hf
    have hidem : ∀ b, (OfMsg.flow g).onFlow s ((OfMsg.flow g).onFlow s b) = (OfMsg.flow g).onFlow s b := by
      intro b
      rcases hg with hg | hg
      · simp only [OfMsg.onFlow, hg]; split <;> simp_all
      · simp only [OfMsg.onFlow, hg]
        split
        · cases b <;> simp
        · rfl
    right
    rcases ih (fun x hx => h x (List.mem_cons_of_mem _ hx)) ((OfMsg.flow g).onFlow s b) with h1 | h1
    · exact h1
    · exact h1.trans (hidem b)

theorem foldl_same_ne {m0 : OfMsg} {s : Slot} (hf : ∃ g, m0 = .flow g ∧ (g.cmd = .add ∨ g.cmd = .modifyStrict)) :
    ∀ (l : List OfMsg), (∀ m ∈ l, m = m0) → m0 ∈ l → ∀ b, l.foldl (fun b m => m.onFlow s b) b = m0.onFlow s b := by
  intro l h1 h2 b
  cases l with
  | nil => cases h2
  | cons m l =>
    obtain rfl := h1 m List.mem_cons_self
    rcases foldl_same hf l (fun x hx => h1 x (List.mem_cons_of_mem _ hx)) (m.onFlow s b) (s := s) with h | h
    · exact h
    · refine h.trans ?_
      obtain ⟨g, rfl, hg⟩ := hf
      rcases hg with hg | hg
      · simp only [OfMsg.onFlow, hg]; split <;> simp_all
      · simp only [OfMsg.onFlow, hg]
        split
        · cases b <;> simp
        · rfl

/-- The flow in a slot after the batch: added by it, or an old one that no effective deletion hits, possibly modified. -/
theorem batch_at {sh : List OfMsg → List OfMsg} (hsh : ∀ l, (sh l).Perm l) {bar : Bool} {A B out : List OfMsg} (hp : Phased A B)
    (hout : reorder sh bar (A ++ B) = some out) (sw : Switch) (s : Slot) :
    (∃ f, .flow f ∈ B ∧ f.cmd = .add ∧ f.slot = s ∧ (sw.execAll out).flows s = some f.body) ∨
    ((∀ f, .flow f ∈ A ++ B → f.cmd = .add → f.slot ≠ s) ∧
      ∃ b : Option Body, (∀ x, b = some x → sw.flows s = some x ∧
          ∀ d, .flow d ∈ A ++ B → d.kills s x = true → Dropped (A ++ B) d) ∧
        (∀ x, sw.flows s = some x → (∀ d, .flow d ∈ A ++ B → d.kills s x = false) → b = some x) ∧
        ((sw.execAll out).flows s = b ∨ ∃ f, .flow f ∈ A ∧ f.cmd = .modifyStrict ∧ f.slot = s ∧
          (sw.execAll out).flows s = b.map (fun x => { x with inst := f.inst }))) := by
  rw [reorder_eq] at hout
  obtain ⟨dels, hd, rfl⟩ := Option.map_eq_some_iff.1 hout
  rw [assemble_eq, execAll_flows, List.foldl_append]
  rw [foldl_deletions (pre sh bar (A ++ B) dels) s _ (fun m hm => by
      rcases pre_kinds hd hm with h | h
      · exact Or.inl h.1
      · exact Or.inr ⟨h.1.1, h.1.2.1⟩)]
  rw [foldl_adds (post sh bar (A ++ B)) s _ (fun m hm => post_not_deletion hsh hm)]
  generalize hb : (sw.flows s).filter (fun x => !((pre sh bar (A ++ B) dels).any (fun m => isDeletion m && m.kills s x))) = b
  have hb1 : ∀ x, b = some x → sw.flows s = some x ∧ ∀ d, .flow d ∈ A ++ B → d.kills s x = true → Dropped (A ++ B) d := by
    intro x hx
    rw [hx] at hb
    obtain ⟨h1, h2⟩ := Option.filter_eq_some_iff.1 hb
    refine ⟨h1, ?_⟩
    intro d hdm hk
    have hdel : isDeletion (.flow d) = true := by
      cases hc : d.cmd <;> simp [FlowMod.kills, hc, isDeletion] at hk ⊢
    obtain ⟨m', hin, hdel', hsub, hor⟩ := dels_subsume hd hdm hdel
    have hm'ms : m' ∈ A ++ B := by
      rcases hin with h | h
      · exact (mem_suppressed (mem_dels hd h)).1
      · exact (mem_seg h).1
    obtain ⟨d', rfl⟩ := hp.flows m' hm'ms
    have hm' : OfMsg.flow d' ∈ dels := by
      rcases hor with h | h
      · exact h
      · exact absurd (h d' rfl).1 (hp.narrow d' hm'ms)
    have hk' : (OfMsg.flow d').kills s x = true := by
      apply subsumes_kills hdel' hdel hsub ?_ hk
      rintro f hf ht
      cases hf
      exact absurd ht (hp.narrow d' hm'ms)
    have hno : OfMsg.flow d' ∉ removeOverlap dels (segAdd sh (A ++ B)) := by
      intro h
      simp only [Bool.not_eq_true', List.any_eq_false, Bool.and_eq_true, not_and] at h2
      exact h2 (.flow d') (by simp only [pre, List.mem_append]; exact Or.inr (mem_emit_of h)) hdel' hk'
    rw [mem_removeOverlap] at hno
    have hno : ∃ a ∈ segAdd sh (A ++ B), ∃ k, flowKey? (.flow d') = some k ∧ flowKey? a = some k := by
      by_contra h
      refine hno ⟨hm', ?_⟩
      intro k hk a ha hak
      exact h ⟨a, ha, k, hk, hak⟩
    obtain ⟨a, ha, k, hkd, hka⟩ := hno
    have hfa := mem_segAdd ha
    cases a with
    | flow f =>
      have hsame : SameKey d' f := flowKey_same (hkd.trans hka.symm)
      refine ⟨f, hfa.1, kind_flowadd.2 hfa.2, ?_⟩
      have hdd : d'.slot = d.slot := by
        rcases hsub with h | h
        · simp only [sameContent, FlowMod.mk.injEq, Match.mk.injEq] at h
          simp [FlowMod.slot, h]
        · rcases h with ⟨h1, _⟩ | ⟨_, _, ht, _⟩
          · cases hc : d'.cmd <;> simp [isFlowAdd, isDeletion, hc] at h1 hdel'
          · exact absurd ht (hp.narrow d' hm'ms)
      rw [← hdd]
      simp [FlowMod.slot, hsame.1, hsame.2.2.1, hsame.2.2.2]
    | _ => simp [flowKey?] at hka
  have hb2 : ∀ x, sw.flows s = some x → (∀ d, .flow d ∈ A ++ B → d.kills s x = false) → b = some x := by
    intro x hx hno
    rw [← hb, hx]
    refine Option.filter_eq_some_iff.2 ⟨rfl, ?_⟩
    simp only [Bool.not_eq_true', List.any_eq_false, Bool.and_eq_true, not_and]
    intro m hm hdm
    rcases pre_kinds hd hm with h | h
    · obtain ⟨d, rfl⟩ := hp.flows m h.2
      have := hno d h.2
      simp [OfMsg.kills, this]
    · rw [h.1.1] at hdm; cases hdm
  cases hl : ((A ++ B).filter (forSlot s)).getLast? with
  | none =>
    right
    have hnil := List.getLast?_eq_none_iff.1 hl
    have hno : ∀ f, .flow f ∈ A ++ B → f.cmd = .add → f.slot ≠ s := by
      intro f hf hc hs
      exact List.filter_eq_nil_iff.1 hnil _ hf (forSlot_iff.2 ⟨f, rfl, hs, by simp [isFlowAdd, hc]⟩)
    have hpn : (post sh bar (A ++ B)).filter (forSlot s) = [] := by
      rw [List.filter_eq_nil_iff]
      intro m hm hf
      exact List.filter_eq_nil_iff.1 hnil m (mem_segAdd (post_forSlot hsh hm hf)).1 hf
    exact ⟨hno, b, hb1, hb2, Or.inl (by rw [hpn]; rfl)⟩
  | some m0 =>
    obtain ⟨h1, h2⟩ := post_all_last hsh bar hp.keys s hl
    obtain ⟨hm0, hf0⟩ := List.mem_filter.1 (List.mem_of_getLast? hl)
    obtain ⟨f0, rfl, hs0, ha0⟩ := forSlot_iff.1 hf0
    have hc0 : f0.cmd = .add ∨ f0.cmd = .modifyStrict := by simpa [isFlowAdd] using ha0
    rw [foldl_same_ne ⟨f0, rfl, hc0⟩ _ h2 h1]
    rcases hc0 with hc | hc
    · left
      refine ⟨f0, ?_, hc, hs0, by simp [OfMsg.onFlow, hc, hs0]⟩
      rcases List.mem_append.1 hm0 with h | h
      · exact absurd hc (hp.first f0 h)
      · exact h
    · right
      refine ⟨?_, b, hb1, hb2, Or.inr ⟨f0, ?_, hc, hs0, by simp [OfMsg.onFlow, hc, hs0]⟩⟩
      · intro f hf hfc hfs
        obtain ⟨g, hg, hgc⟩ := hp.last hf hfs hfc hl
        cases hg
        rw [hc] at hgc; cases hgc
      · rcases List.mem_append.1 hm0 with h | h
        · exact h
        · exact absurd hc (hp.second f0 h)

end Faucet.FlowReorder
