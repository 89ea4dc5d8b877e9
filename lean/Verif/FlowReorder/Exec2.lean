import Verif.FlowReorder.Exec

/-! Flow, group and meter tables after a reordered batch: helper lemmas for C07. -/

namespace Faucet.FlowReorder
open Faucet.OF

/-- Everything before the flow additions. -/
def pre (sh : List OfMsg → List OfMsg) (bar : Bool) (ms dels : List OfMsg) : List OfMsg :=
  emit bar (seg sh ms .config) ++ emit bar (seg sh ms .deleteglobal)
    ++ emit bar (removeOverlap dels (segAdd sh ms))

/-- Everything after the deletions. -/
def post (sh : List OfMsg → List OfMsg) (bar : Bool) (ms : List OfMsg) : List OfMsg :=
  emit bar (seg sh ms .tfm) ++ emit bar (seg sh ms .groupadd) ++ emit bar (seg sh ms .meteradd)
    ++ emit false (segAdd sh ms) ++ emit false (seg sh ms .other) ++ emit false (segOut sh ms)

theorem assemble_eq (sh : List OfMsg → List OfMsg) (bar : Bool) (ms dels : List OfMsg) :
    assemble sh bar ms dels = pre sh bar ms dels ++ post sh bar ms := by
  simp [assemble, pre, post, List.append_assoc]

theorem mem_pre {sh : List OfMsg → List OfMsg} {bar : Bool} {ms dels : List OfMsg} {m : OfMsg}
    (h : m ∈ pre sh bar ms dels) :
    m = .barrier ∨ m ∈ seg sh ms .config ∨ m ∈ seg sh ms .deleteglobal ∨ m ∈ removeOverlap dels (segAdd sh ms) := by
  simp only [pre, List.mem_append] at h
  rcases h with (h | h) | h <;> rcases mem_emit h with h | h <;> simp [h]

theorem mem_post {sh : List OfMsg → List OfMsg} {bar : Bool} {ms : List OfMsg} {m : OfMsg}
    (h : m ∈ post sh bar ms) :
    m = .barrier ∨ m ∈ seg sh ms .tfm ∨ m ∈ seg sh ms .groupadd ∨ m ∈ seg sh ms .meteradd ∨
      m ∈ segAdd sh ms ∨ m ∈ seg sh ms .other ∨ m ∈ segOut sh ms := by
  simp only [post, List.mem_append] at h
  rcases h with ((((h | h) | h) | h) | h) | h <;> rcases mem_emit h with h | h <;> simp [h]

theorem pre_kinds {sh : List OfMsg → List OfMsg} {bar : Bool} {ms dels : List OfMsg}
    (hd : dedupeOverlaps sh false strKey (suppressed ms) = some dels) {m : OfMsg}
    (h : m ∈ pre sh bar ms dels) :
    (isDeletion m = true ∧ m ∈ ms) ∨ (isDeletion m = false ∧ isFlowAdd m = false ∧ ∀ g, m ≠ .group g) ∧ ∀ g, m ≠ .meter g := by
  rcases mem_pre h with rfl | h | h | h
  · right; simp [isDeletion, isFlowAdd]
  · right
    have := (mem_seg h).2
    have h2 := inert_of_kind (m := m) (by simp [this]) (by simp [this]) (by simp [this])
    refine ⟨⟨h2.1, h2.2, ?_⟩, ?_⟩
    · rintro ⟨c, i, _⟩ rfl; cases c <;> cases i <;> simp [msgKind] at this
    · rintro ⟨c, i, _⟩ rfl; cases c <;> cases i <;> simp [msgKind] at this
  · left; exact ⟨kind_deletion.2 (Or.inr (mem_seg h).2), (mem_seg h).1⟩
  · left
    have := mem_suppressed (mem_dels hd (mem_removeOverlap.1 h).1)
    exact ⟨kind_deletion.2 (Or.inl this.2), this.1⟩

theorem post_not_deletion {sh : List OfMsg → List OfMsg} (hsh : ∀ l, (sh l).Perm l) {bar : Bool} {ms : List OfMsg} {m : OfMsg}
    (h : m ∈ post sh bar ms) : isDeletion m = false := by
  have key : ∀ k, msgKind m = k → k ≠ .delete → k ≠ .deleteglobal → isDeletion m = false := by
    intro k hk h1 h2
    cases hd : isDeletion m with
    | false => rfl
    | true => rcases kind_deletion.1 hd with h | h <;> rw [hk] at h <;> contradiction
  rcases mem_post h with rfl | h | h | h | h | h | h
  · rfl
  · exact key _ (mem_seg h).2 (by decide) (by decide)
  · exact key _ (mem_seg h).2 (by decide) (by decide)
  · exact key _ (mem_seg h).2 (by decide) (by decide)
  · exact key _ (mem_segAdd h).2 (by decide) (by decide)
  · exact key _ (mem_seg h).2 (by decide) (by decide)
  · exact key _ (mem_segOut hsh h).2 (by decide) (by decide)

/-- The additions for a slot in the reordered batch are additions of the batch. -/
theorem post_forSlot {sh : List OfMsg → List OfMsg} (hsh : ∀ l, (sh l).Perm l) {bar : Bool} {ms : List OfMsg} {m : OfMsg}
    {s : Slot} (h : m ∈ post sh bar ms) (hf : forSlot s m = true) : m ∈ segAdd sh ms := by
  have hadd : msgKind m = .flowaddmod := by
    cases m with
    | flow f => simp [forSlot] at hf; exact kind_flowadd.1 hf.1
    | _ => simp [forSlot] at hf
  rcases mem_post h with rfl | h | h | h | h | h | h
  · simp [forSlot] at hf
  · have := (mem_seg h).2; rw [hadd] at this; cases this
  · have := (mem_seg h).2; rw [hadd] at this; cases this
  · have := (mem_seg h).2; rw [hadd] at this; cases this
  · exact h
  · have := (mem_seg h).2; rw [hadd] at this; cases this
  · have := (mem_segOut hsh h).2; rw [hadd] at this; cases this

theorem forSlot_iff {s : Slot} {m : OfMsg} : forSlot s m = true ↔
    ∃ f, m = .flow f ∧ f.slot = s ∧ isFlowAdd (.flow f) = true := by
  cases m with
  | flow f => simp [forSlot, and_comm]
  | _ => simp [forSlot]

/-- Additions for the slot agree on cookie and match object. -/
def UniformKeys (ms : List OfMsg) : Prop :=
  ∀ f g, .flow f ∈ ms → .flow g ∈ ms → isFlowAdd (.flow f) → isFlowAdd (.flow g) → f.slot = g.slot → f.mtch = g.mtch ∧ f.cookie = g.cookie

/-- Only the last addition for a slot stays. -/
theorem post_all_last {sh : List OfMsg → List OfMsg} (hsh : ∀ l, (sh l).Perm l) (bar : Bool) {ms : List OfMsg}
    (hcons : UniformKeys ms) (s : Slot) {m0 : OfMsg} (hA : (ms.filter (forSlot s)).getLast? = some m0) :
    m0 ∈ (post sh bar ms).filter (forSlot s) ∧ ∀ m ∈ (post sh bar ms).filter (forSlot s), m = m0 := by
  have hm0 := List.mem_of_getLast? hA
  obtain ⟨hm0in, hm0f⟩ := List.mem_filter.1 hm0
  obtain ⟨f0, rfl, hf0s, hf0a⟩ := forSlot_iff.1 hm0f
  -- messages for the slot are those with the key of the last one
  have hkey : ∀ m ∈ ms, (forSlot s m = true ↔ (msgKind m = .flowaddmod ∧ flowModKey m = flowModKey (.flow f0))) := by
    intro m hm
    rw [forSlot_iff]
    constructor
    · rintro ⟨f, rfl, hfs, hfa⟩
      obtain ⟨h1, h2⟩ := hcons f f0 hm hm0in hfa hf0a (hfs.trans hf0s.symm)
      refine ⟨kind_flowadd.1 hfa, ?_⟩
      have hsl := hfs.trans hf0s.symm
      simp only [FlowMod.slot, Slot.mk.injEq] at hsl
      simp [flowModKey, flowKey?, h1, h2, hsl.1, hsl.2.1]
    · rintro ⟨h1, h2⟩
      cases m with
      | flow f =>
        refine ⟨f, rfl, ?_, kind_flowadd.2 h1⟩
        simp [flowModKey, flowKey?] at h2
        rw [← hf0s]
        simp [FlowMod.slot, h2]
      | _ => exact absurd (kind_flowadd.2 h1) (by simp [isFlowAdd])
  have hfilter : ms.filter (forSlot s) =
      (ofKind ms .flowaddmod).filter (fun m => flowModKey m = flowModKey (.flow f0)) := by
    unfold ofKind
    rw [List.filter_filter]
    apply List.filter_congr
    intro m hm
    have := hkey m hm
    by_cases hf : forSlot s m = true
    · rw [hf]; have := this.1 hf; simp [this.1, this.2]
    · have hf' : forSlot s m = false := by simpa using hf
      rw [hf']
      symm
      by_cases h1 : msgKind m = .flowaddmod
      · by_cases h2 : flowModKey m = flowModKey (.flow f0)
        · exact absurd (this.2 ⟨h1, h2⟩) hf
        · simp [h2]
      · simp [h1]
  rw [hfilter] at hA
  have hin : OfMsg.flow f0 ∈ segAdd sh ms := mem_dedupe_false.2 (mem_values_dedupe.2 hA)
  have hinpost : OfMsg.flow f0 ∈ (post sh bar ms).filter (forSlot s) := by
    refine List.mem_filter.2 ⟨?_, hm0f⟩
    simp only [post, List.mem_append]
    exact Or.inl (Or.inl (Or.inr (mem_emit_of hin)))
  have hall : ∀ m ∈ (post sh bar ms).filter (forSlot s), m = .flow f0 := by
    intro m hm
    obtain ⟨h1, h2⟩ := List.mem_filter.1 hm
    have h3 := post_forSlot hsh h1 h2
    have h4 := mem_segAdd h3
    have h5 := (hkey m h4.1).1 h2
    have h6 := mem_values_dedupe.1 (mem_dedupe_false.1 h3)
    rw [h5.2, hA] at h6
    exact (Option.some.inj h6).symm
  exact ⟨hinpost, hall⟩

/-- The last addition for a slot is the same before and after reordering. -/
theorem last_for_slot {sh : List OfMsg → List OfMsg} (hsh : ∀ l, (sh l).Perm l) (bar : Bool) {ms : List OfMsg}
    (hcons : AddsConsistent ms) (s : Slot) :
    ((post sh bar ms).filter (forSlot s)).getLast? = (ms.filter (forSlot s)).getLast? := by
  cases hA : (ms.filter (forSlot s)).getLast? with
  | none =>
    have hnil : ms.filter (forSlot s) = [] := List.getLast?_eq_none_iff.1 hA
    rw [List.getLast?_eq_none_iff, List.filter_eq_nil_iff]
    intro m hm hf
    have hmem := (mem_segAdd (post_forSlot hsh hm hf)).1
    exact List.filter_eq_nil_iff.1 hnil m hmem hf
  | some m0 =>
    obtain ⟨hinpost, hall⟩ := post_all_last hsh bar (fun f g h1 h2 h3 h4 h5 => ⟨(hcons f g h1 h2 h3 h4 h5).1, (hcons f g h1 h2 h3 h4 h5).2.1⟩) s hA
    cases hg : ((post sh bar ms).filter (forSlot s)).getLast? with
    | none => rw [List.getLast?_eq_none_iff.1 hg] at hinpost; cases hinpost
    | some m => rw [hall m (List.mem_of_getLast? hg)]

theorem flowKey_same {d a : FlowMod} (h : flowKey? (.flow d) = flowKey? (.flow a)) : SameKey d a := by
  simp [flowKey?] at h
  exact ⟨h.1, h.2.1, h.2.2.1, h.2.2.2⟩

/-- Killing by the batch and by the reordered batch agree on a slot that no addition overwrites. -/
theorem kills_iff {sh : List OfMsg → List OfMsg} {bar : Bool} {ms dels : List OfMsg}
    (hd : dedupeOverlaps sh false strKey (suppressed ms) = some dels)
    (hplain : WideDeletesPlain ms) {s : Slot} (hns : ¬ Shadowed ms s)
    (hnoadd : ∀ f, .flow f ∈ ms → f.cmd = .add → f.slot ≠ s) (x : Body) :
    (pre sh bar ms dels).any (fun m => isDeletion m && m.kills s x) =
      (ms.filter isDeletion).any (fun m => isDeletion m && m.kills s x) := by
  rw [Bool.eq_iff_iff, List.any_eq_true, List.any_eq_true]
  constructor
  · rintro ⟨m, hm, hk⟩
    simp only [Bool.and_eq_true] at hk
    rcases pre_kinds hd hm with h | h
    · exact ⟨m, List.mem_filter.2 ⟨h.2, h.1⟩, by simp [hk]⟩
    · rw [h.1.1] at hk; exact absurd hk.1 (by simp)
  · rintro ⟨m, hm, hk⟩
    simp only [Bool.and_eq_true] at hk
    obtain ⟨hm, hdel⟩ := List.mem_filter.1 hm
    obtain ⟨m', hin, hdel', hsub, hor⟩ := dels_subsume hd hm hdel
    have hm'ms : m' ∈ ms := by
      rcases hin with h | h
      · exact (mem_suppressed (mem_dels hd h)).1
      · exact (mem_seg h).1
    have hk' : m'.kills s x = true := by
      apply subsumes_kills hdel' hdel hsub ?_ hk.2
      rintro f rfl ht
      apply hplain f hm'ms ?_ ht
      simpa [isDeletion] using hdel'
    refine ⟨m', ?_, by simp [hdel', hk']⟩
    simp only [pre, List.mem_append]
    rcases hin with h | h
    · right
      apply mem_emit_of
      rw [mem_removeOverlap]
      refine ⟨h, ?_⟩
      intro k hkk a ha hak
      cases m' with
      | flow d =>
        cases a with
        | flow f =>
          have hfa := mem_segAdd ha
          have hsame : SameKey d f := flowKey_same (hkk.trans hak.symm)
          apply hns
          refine ⟨d, f, hm'ms, hfa.1, hdel', kind_flowadd.2 hfa.2, hsame, kills_reaches hk', ?_⟩
          rintro ⟨h1, h2⟩
          exact hnoadd f hfa.1 h1 h2
        | _ => simp [flowKey?] at hak
      | _ => simp [flowKey?] at hkk
    · left; right; exact mem_emit_of h

/-- Flow table after a reordered batch. -/
theorem flows_eq {sh : List OfMsg → List OfMsg} (hsh : ∀ l, (sh l).Perm l) {bar : Bool} {ms out : List OfMsg}
    (hout : reorder sh bar ms = some out) (hplain : WideDeletesPlain ms) (hcons : AddsConsistent ms)
    (sw : Switch) (s : Slot) (hns : ¬ Shadowed ms s) :
    (sw.execAll out).flows s = (sw.execAll (deletesFirst ms)).flows s := by
  rw [reorder_eq] at hout
  cases hd : dedupeOverlaps sh false strKey (suppressed ms) with
  | none => rw [hd] at hout; simp at hout
  | some dels =>
    rw [hd] at hout
    simp only [Option.map_some, Option.some.injEq] at hout
    subst hout
    rw [assemble_eq, execAll_flows, execAll_flows, List.foldl_append, deletesFirst, List.foldl_append]
    rw [foldl_deletions (pre sh bar ms dels) s _ (fun m hm => by
      rcases pre_kinds hd hm with h | h
      · exact Or.inl h.1
      · exact Or.inr ⟨h.1.1, h.1.2.1⟩)]
    rw [foldl_deletions (ms.filter isDeletion) s _ (fun m hm => Or.inl (List.mem_filter.1 hm).2)]
    rw [foldl_adds (post sh bar ms) s _ (fun m hm => post_not_deletion hsh hm)]
    rw [foldl_adds (ms.filter (fun m => !isDeletion m)) s _ (fun m hm => by simpa using (List.mem_filter.1 hm).2)]
    have hA : (ms.filter (fun m => !isDeletion m)).filter (forSlot s) = ms.filter (forSlot s) := by
      rw [List.filter_filter]
      apply List.filter_congr
      intro m _
      cases hf : forSlot s m with
      | false => rfl
      | true =>
        obtain ⟨f, rfl, _, hfa⟩ := forSlot_iff.1 hf
        cases hc : f.cmd <;> simp [isFlowAdd, isDeletion, hc] at hfa ⊢
    rw [hA]
    have hms : ∀ m ∈ ms.filter (forSlot s), ∃ f, m = .flow f ∧ f.slot = s ∧ isFlowAdd (.flow f) = true :=
      fun m hm => forSlot_iff.1 (List.mem_filter.1 hm).2
    have hps : ∀ m ∈ (post sh bar ms).filter (forSlot s), ∃ f, m = .flow f ∧ f.slot = s ∧ isFlowAdd (.flow f) = true :=
      fun m hm => forSlot_iff.1 (List.mem_filter.1 hm).2
    have hmc : ∀ f g, .flow f ∈ ms.filter (forSlot s) → .flow g ∈ ms.filter (forSlot s) → f.cmd = g.cmd := by
      intro f g hf hg
      obtain ⟨hf1, hf2⟩ := List.mem_filter.1 hf
      obtain ⟨hg1, hg2⟩ := List.mem_filter.1 hg
      simp [forSlot] at hf2 hg2
      exact (hcons f g hf1 hg1 hf2.1 hg2.1 (hf2.2.trans hg2.2.symm)).2.2
    have hpc : ∀ f g, .flow f ∈ (post sh bar ms).filter (forSlot s) → .flow g ∈ (post sh bar ms).filter (forSlot s) → f.cmd = g.cmd := by
      intro f g hf hg
      obtain ⟨hf1, hf2⟩ := List.mem_filter.1 hf
      obtain ⟨hg1, hg2⟩ := List.mem_filter.1 hg
      exact hmc f g (List.mem_filter.2 ⟨(mem_segAdd (post_forSlot hsh hf1 hf2)).1, hf2⟩)
        (List.mem_filter.2 ⟨(mem_segAdd (post_forSlot hsh hg1 hg2)).1, hg2⟩)
    rw [foldl_last _ s _ hps hpc, foldl_last _ s _ hms hmc, last_for_slot hsh bar hcons s]
    by_cases hadd : ∃ f, .flow f ∈ ms ∧ f.cmd = .add ∧ f.slot = s
    · -- the slot is overwritten
      obtain ⟨f, hf, hfc, hfs⟩ := hadd
      have hfin : OfMsg.flow f ∈ ms.filter (forSlot s) :=
        List.mem_filter.2 ⟨hf, forSlot_iff.2 ⟨f, rfl, hfs, by simp [isFlowAdd, hfc]⟩⟩
      cases hl : (ms.filter (forSlot s)).getLast? with
      | none => rw [List.getLast?_eq_none_iff.1 hl] at hfin; cases hfin
      | some m =>
        have hm := List.mem_of_getLast? hl
        obtain ⟨g, rfl, hgs, hga⟩ := hms m hm
        have hgc := hmc f g hfin hm
        rw [hfc] at hgc
        simp [OfMsg.onFlow, ← hgc, hgs]
    · have hno : ∀ f, .flow f ∈ ms → f.cmd = .add → f.slot ≠ s := fun f h1 h2 h3 => hadd ⟨f, h1, h2, h3⟩
      have : (fun x => !(pre sh bar ms dels).any (fun m => isDeletion m && m.kills s x)) =
          (fun x => !(ms.filter isDeletion).any (fun m => isDeletion m && m.kills s x)) := by
        funext x
        rw [kills_iff hd hplain hns hno x]
      rw [this]

/-! ## Groups and meters -/

/-- The message deletes group `g`. -/
def hitsGroup (g : Nat) : OfMsg → Bool
  | .group ⟨.delete, none, _⟩ => true
  | .group ⟨.delete, some i, _⟩ => i == g
  | _ => false

/-- The buckets the message gives to group `g`. -/
def addsGroup (g : Nat) : OfMsg → Option (List (List Action))
  | .group ⟨.add, some i, bs⟩ => if i = g then some bs else none
  | _ => none

def hitsMeter (g : Nat) : OfMsg → Bool
  | .meter ⟨.delete, none, _⟩ => true
  | .meter ⟨.delete, some i, _⟩ => i == g
  | _ => false

def addsMeter (g : Nat) : OfMsg → Option Nat
  | .meter ⟨.add, some i, r⟩ => if i = g then some r else none
  | _ => none

theorem onGroup_eq (m : OfMsg) (g : Nat) (b : Option (List (List Action))) :
    m.onGroup g b = if hitsGroup g m then none else b.or (addsGroup g m) := by
  cases m with
  | group x =>
    obtain ⟨c, i, bs⟩ := x
    cases c <;> cases i <;> cases b <;> simp [OfMsg.onGroup, hitsGroup, addsGroup]
  | _ => simp [OfMsg.onGroup, hitsGroup, addsGroup]

theorem onMeter_eq (m : OfMsg) (g : Nat) (b : Option Nat) :
    m.onMeter g b = if hitsMeter g m then none else b.or (addsMeter g m) := by
  cases m with
  | meter x =>
    obtain ⟨c, i, bs⟩ := x
    cases c <;> cases i <;> cases b <;> simp [OfMsg.onMeter, hitsMeter, addsMeter]
  | _ => simp [OfMsg.onMeter, hitsMeter, addsMeter]

/-- Generic fold: deletions, then additions. -/
theorem fold_split {β : Type} (on : OfMsg → Option β → Option β) (hits : OfMsg → Bool) (adds : OfMsg → Option β)
    (hon : ∀ m b, on m b = if hits m then none else b.or (adds m))
    (A B : List OfMsg) (hA : ∀ m ∈ A, adds m = none) (hB : ∀ m ∈ B, hits m = false) (b : Option β) :
    (A ++ B).foldl (fun b m => on m b) b = (if A.any hits then none else b).or (B.findSome? adds) := by
  rw [List.foldl_append]
  have h1 : ∀ (A : List OfMsg) (b : Option β), (∀ m ∈ A, adds m = none) →
      A.foldl (fun b m => on m b) b = if A.any hits then none else b := by
    intro A
    induction A with
    | nil => intro b _; simp
    | cons m A ih =>
      intro b hA
      simp only [List.foldl_cons]
      rw [ih _ (fun x hx => hA x (List.mem_cons_of_mem _ hx)), hon, hA m (by simp)]
      by_cases hm : hits m <;> simp [hm]
  have h2 : ∀ (B : List OfMsg) (b : Option β), (∀ m ∈ B, hits m = false) →
      B.foldl (fun b m => on m b) b = b.or (B.findSome? adds) := by
    intro B
    induction B with
    | nil => intro b _; simp
    | cons m B ih =>
      intro b hB
      simp only [List.foldl_cons]
      rw [ih _ (fun x hx => hB x (List.mem_cons_of_mem _ hx)), hon, hB m (by simp)]
      simp only [Bool.false_eq_true, if_false, List.findSome?_cons]
      cases b <;> cases adds m <;> simp
  rw [h1 A b hA, h2 B _ hB]

theorem addsGroup_kind {g : Nat} {m : OfMsg} (h : addsGroup g m ≠ none) : msgKind m = .groupadd := by
  cases m with
  | group x => obtain ⟨c, i, bs⟩ := x; cases c <;> cases i <;> simp [addsGroup, msgKind] at h ⊢
  | _ => simp [addsGroup] at h

theorem addsMeter_kind {g : Nat} {m : OfMsg} (h : addsMeter g m ≠ none) : msgKind m = .meteradd := by
  cases m with
  | meter x => obtain ⟨c, i, bs⟩ := x; cases c <;> cases i <;> simp [addsMeter, msgKind] at h ⊢
  | _ => simp [addsMeter] at h

theorem hitsGroup_del {g : Nat} {m : OfMsg} (h : hitsGroup g m = true) : isDeletion m = true := by
  cases m with
  | group x => obtain ⟨c, i, bs⟩ := x; cases c <;> simp [hitsGroup, isDeletion] at h ⊢
  | _ => simp [hitsGroup] at h

theorem hitsMeter_del {g : Nat} {m : OfMsg} (h : hitsMeter g m = true) : isDeletion m = true := by
  cases m with
  | meter x => obtain ⟨c, i, bs⟩ := x; cases c <;> simp [hitsMeter, isDeletion] at h ⊢
  | _ => simp [hitsMeter] at h

/-- Additions look the same through de-duplication: the first match is found in both. -/
theorem findSome_values {β : Type} (adds : OfMsg → Option β) (L : List OfMsg) (hL : ∀ m ∈ L, ∀ f, m ≠ .flow f) :
    (dedupeDict strKey L).values.findSome? adds = L.findSome? adds := by
  induction L using list_snoc_induction with
  | h0 => rfl
  | h1 l a ih =>
    have hl : ∀ m ∈ l, ∀ f, m ≠ .flow f := fun m hm => hL m (by simp [hm])
    have ha : ∀ f, a ≠ .flow f := hL a (by simp)
    rw [dedupeDict_append]
    by_cases hk : strKey a ∈ (dedupeDict strKey l).keys
    · obtain ⟨v, hv⟩ := Option.isSome_iff_exists.1 (Dict.get?_isSome_iff_mem_keys.2 hk)
      have hmem := Dict.mem_of_get? hv
      have hkk := dedupeDict_key hmem
      have hva : v = a := strKey_nonflow hkk.1 ha
      subst hva
      rw [set_same _ _ _ hv, ih hl, List.findSome?_append]
      cases hf : l.findSome? adds with
      | some x => rfl
      | none =>
        have := List.findSome?_eq_none_iff.1 hf v hkk.2
        simp [this]
    · rw [set_append_new _ _ _ hk]
      have : Dict.values (dedupeDict strKey l ++ [(strKey a, a)]) = (dedupeDict strKey l).values ++ [a] := by
        simp [Dict.values]
      rw [this, List.findSome?_append, List.findSome?_append, ih hl]

/-- Messages that are not flow mods are never reordered by the sort. -/
theorem sortFlows_nonflow (L : List OfMsg) (hL : ∀ m ∈ L, ∀ f, m ≠ .flow f) : sortFlows L = L := by
  apply sortFlows_of_sorted
  have hk : ∀ m ∈ L, sortKey m = (tableAll, 2 ^ 16 + 1) := by
    intro m hm
    have := hL m hm
    cases m with
    | flow f => exact absurd rfl (this f)
    | _ => rfl
  apply List.pairwise_iff_forall_sublist.2
  intro a b hab
  have ha := hk a (hab.subset (by simp))
  have hb := hk b (hab.subset (by simp))
  simp [sortLe, ha, hb]

theorem findSome_seg {β : Type} (sh : List OfMsg → List OfMsg) (adds : OfMsg → Option β) (ms : List OfMsg) (k : Kind)
    (hk : ∀ m, msgKind m = k → ∀ f, m ≠ .flow f) :
    (seg sh ms k).findSome? adds = (ofKind ms k).findSome? adds := by
  have hL : ∀ m ∈ ofKind ms k, ∀ f, m ≠ .flow f := fun m hm => hk m (mem_ofKind.1 hm).2
  unfold seg
  rw [dedupe_false, sortFlows_nonflow _ (fun m hm => hL m (mem_of_mem_values hm)), findSome_values adds _ hL]

theorem findSome_emit {β : Type} (adds : OfMsg → Option β) (hb : adds .barrier = none) (bar : Bool) (L : List OfMsg) :
    (emit bar L).findSome? adds = L.findSome? adds := by
  unfold emit
  split
  · rename_i h; rw [h]
  · cases bar <;> simp [List.findSome?_append, hb]

theorem findSome_none {β : Type} (adds : OfMsg → Option β) (L : List OfMsg) (h : ∀ m ∈ L, adds m = none) :
    L.findSome? adds = none := List.findSome?_eq_none_iff.2 h

theorem findSome_filter {β : Type} (adds : OfMsg → Option β) (p : OfMsg → Bool) (L : List OfMsg)
    (h : ∀ m, adds m ≠ none → p m = true) : (L.filter p).findSome? adds = L.findSome? adds := by
  induction L with
  | nil => rfl
  | cons m L ih =>
    rw [List.filter_cons]
    split
    · simp [List.findSome?_cons, ih]
    · rename_i hp
      have : adds m = none := by
        cases ha : adds m with
        | none => rfl
        | some x => exact absurd (h m (by simp [ha])) hp
      simp [List.findSome?_cons, this, ih]

/-- The state that is kept per group or meter id after the reordered batch. -/
theorem table_eq {β : Type} {sh : List OfMsg → List OfMsg} (hsh : ∀ l, (sh l).Perm l) {bar : Bool} {ms dels : List OfMsg}
    (hd : dedupeOverlaps sh false strKey (suppressed ms) = some dels)
    (on : OfMsg → Option β → Option β) (hits : OfMsg → Bool) (adds : OfMsg → Option β) (k : Kind)
    (hk : k = .groupadd ∨ k = .meteradd)
    (hon : ∀ m b, on m b = if hits m then none else b.or (adds m))
    (hadds : ∀ m, adds m ≠ none → msgKind m = k)
    (hhits : ∀ m, hits m = true → isDeletion m = true)
    (hflow : ∀ f, hits (.flow f) = false)
    (hsub : ∀ m' m, isDeletion m' = true → Subsumes m' m → hits m = true → hits m' = true)
    (b : Option β) :
    (assemble sh bar ms dels).foldl (fun b m => on m b) b = (deletesFirst ms).foldl (fun b m => on m b) b := by
  have hk' : ∀ m, msgKind m = k → ∀ f, m ≠ .flow f := by
    rintro m hm f rfl
    obtain ⟨c, _⟩ := f
    rcases hk with rfl | rfl <;> cases c <;> simp [msgKind] at hm <;> split at hm <;> simp at hm
  have hnodel : ∀ m, adds m ≠ none → isDeletion m = false := by
    intro m hm
    have := hadds m hm
    cases hdm : isDeletion m with
    | false => rfl
    | true =>
      rcases kind_deletion.1 hdm with h | h <;> rw [this] at h <;> rcases hk with rfl | rfl <;> cases h
  have hnb : adds .barrier = none := by
    cases h : adds .barrier with
    | none => rfl
    | some x =>
      have := hadds .barrier (by simp [h])
      rcases hk with rfl | rfl <;> simp [msgKind] at this
  have hother : ∀ k2, k2 ≠ k → (seg sh ms k2).findSome? adds = none := by
    intro k2 hk2
    apply findSome_none
    intro m hm
    cases h : adds m with
    | none => rfl
    | some x =>
      have := hadds m (by simp [h])
      rw [(mem_seg hm).2] at this
      exact absurd this hk2
  rw [assemble_eq]
  rw [fold_split on hits adds hon (pre sh bar ms dels) (post sh bar ms)]
  · unfold deletesFirst
    rw [fold_split on hits adds hon (ms.filter isDeletion) (ms.filter (fun m => !isDeletion m))]
    · congr 1
      · -- deletions agree
        have : (pre sh bar ms dels).any hits = (ms.filter isDeletion).any hits := by
          rw [Bool.eq_iff_iff, List.any_eq_true, List.any_eq_true]
          constructor
          · rintro ⟨m, hm, hh⟩
            rcases pre_kinds hd hm with h | h
            · exact ⟨m, List.mem_filter.2 ⟨h.2, h.1⟩, hh⟩
            · have := hhits m hh; rw [h.1.1] at this; cases this
          · rintro ⟨m, hm, hh⟩
            obtain ⟨hm, hdel⟩ := List.mem_filter.1 hm
            obtain ⟨m', hin, hdel', hsubs, _⟩ := dels_subsume hd hm hdel
            have hh' := hsub m' m hdel' hsubs hh
            refine ⟨m', ?_, hh'⟩
            simp only [pre, List.mem_append]
            rcases hin with h | h
            · right
              apply mem_emit_of
              rw [mem_removeOverlap]
              refine ⟨h, ?_⟩
              intro k2 hk2
              cases m' with
              | flow f => rw [hflow] at hh'; cases hh'
              | _ => simp [flowKey?] at hk2
            · left; right; exact mem_emit_of h
        rw [this]
      · -- additions agree
        have hpost : (post sh bar ms).findSome? adds = (ofKind ms k).findSome? adds := by
          have hadd : (segAdd sh ms).findSome? adds = none := by
            apply findSome_none
            intro m hm
            cases h : adds m with
            | none => rfl
            | some x =>
              have := hadds m (by simp [h])
              rw [(mem_segAdd hm).2] at this
              rcases hk with rfl | rfl <;> cases this
          have hpo : (segOut sh ms).findSome? adds = none := by
            apply findSome_none
            intro m hm
            cases h : adds m with
            | none => rfl
            | some x =>
              have := hadds m (by simp [h])
              rw [(mem_segOut hsh hm).2] at this
              rcases hk with rfl | rfl <;> cases this
          simp only [post, List.findSome?_append, findSome_emit adds hnb, hadd, hpo]
          rcases hk with rfl | rfl
          · rw [hother .tfm (by decide), hother .meteradd (by decide), hother .other (by decide),
              findSome_seg sh adds ms _ hk']
            simp
          · rw [hother .tfm (by decide), hother .groupadd (by decide), hother .other (by decide),
              findSome_seg sh adds ms _ hk']
            simp
        rw [hpost, findSome_filter adds _ ms (fun m hm => by simp [hnodel m hm])]
        exact findSome_filter adds _ ms (fun m hm => by simp [hadds m hm])
    · intro m hm
      cases h : adds m with
      | none => rfl
      | some x =>
        have := hnodel m (by simp [h])
        have h2 := (List.mem_filter.1 hm).2
        rw [this] at h2; cases h2
    · intro m hm
      cases h : hits m with
      | false => rfl
      | true =>
        have := hhits m h
        have h2 := (List.mem_filter.1 hm).2
        simp [this] at h2
  · intro m hm
    cases h : adds m with
    | none => rfl
    | some x =>
      have h1 := hadds m (by simp [h])
      have h2 := hnodel m (by simp [h])
      rcases pre_kinds hd hm with h3 | h3
      · rw [h2] at h3; exact absurd h3.1 (by simp)
      · rcases hk with rfl | rfl
        · cases m with
          | group g => exact absurd rfl (h3.1.2.2 g)
          | flow f => exact absurd rfl (hk' (.flow f) h1 f)
          | meter g => exact absurd rfl (h3.2 g)
          | _ => simp [msgKind] at h1
        · cases m with
          | group g => exact absurd rfl (h3.1.2.2 g)
          | flow f => exact absurd rfl (hk' (.flow f) h1 f)
          | meter g => exact absurd rfl (h3.2 g)
          | _ => simp [msgKind] at h1
  · intro m hm
    cases h : hits m with
    | false => rfl
    | true =>
      have := hhits m h
      rw [post_not_deletion hsh hm] at this
      cases this

theorem subsumes_hitsGroup {g : Nat} {m' m : OfMsg} (_ : isDeletion m' = true) (hs : Subsumes m' m)
    (hh : hitsGroup g m = true) : hitsGroup g m' = true := by
  cases m with
  | group x =>
    cases m' with
    | group y =>
      rcases hs with hs | hs
      · have : y = x := by simpa [sameContent] using hs
        rw [this]; exact hh
      · obtain ⟨c, i, bs⟩ := y
        simp at hs
        obtain ⟨rfl, rfl, _⟩ := hs
        rfl
    | _ => simp [Subsumes, sameContent] at hs
  | _ => simp [hitsGroup] at hh

theorem subsumes_hitsMeter {g : Nat} {m' m : OfMsg} (_ : isDeletion m' = true) (hs : Subsumes m' m)
    (hh : hitsMeter g m = true) : hitsMeter g m' = true := by
  cases m with
  | meter x =>
    cases m' with
    | meter y =>
      rcases hs with hs | hs
      · have : y = x := by simpa [sameContent] using hs
        rw [this]; exact hh
      · obtain ⟨c, i, bs⟩ := y
        simp at hs
        obtain ⟨rfl, rfl, _⟩ := hs
        rfl
    | _ => simp [Subsumes, sameContent] at hs
  | _ => simp [hitsMeter] at hh

theorem groups_meters_eq {sh : List OfMsg → List OfMsg} (hsh : ∀ l, (sh l).Perm l) {bar : Bool} {ms out : List OfMsg}
    (hout : reorder sh bar ms = some out) (sw : Switch) :
    (sw.execAll out).groups = (sw.execAll (deletesFirst ms)).groups ∧
    (sw.execAll out).meters = (sw.execAll (deletesFirst ms)).meters := by
  rw [reorder_eq] at hout
  cases hd : dedupeOverlaps sh false strKey (suppressed ms) with
  | none => rw [hd] at hout; simp at hout
  | some dels =>
    rw [hd] at hout
    simp only [Option.map_some, Option.some.injEq] at hout
    subst hout
    constructor
    · funext g
      rw [execAll_groups, execAll_groups]
      exact table_eq hsh hd (fun m b => m.onGroup g b) (hitsGroup g) (addsGroup g) .groupadd (Or.inl rfl)
        (fun m b => onGroup_eq m g b) (fun m => addsGroup_kind) (fun m => hitsGroup_del) (fun f => rfl)
        (fun m' m => subsumes_hitsGroup) _
    · funext g
      rw [execAll_meters, execAll_meters]
      exact table_eq hsh hd (fun m b => m.onMeter g b) (hitsMeter g) (addsMeter g) .meteradd (Or.inr rfl)
        (fun m b => onMeter_eq m g b) (fun m => addsMeter_kind) (fun m => hitsMeter_del) (fun f => rfl)
        (fun m' m => subsumes_hitsMeter) _

end Faucet.FlowReorder
