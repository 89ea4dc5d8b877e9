import Verif.FlowReorder.Lemmas
import Verif.FlowReorder.Spec

/-! Executing reordered batches: helper lemmas for C07. -/

namespace Faucet.FlowReorder
open Faucet.OF

theorem execAll_flows (sw : Switch) (ms : List OfMsg) (s : Slot) :
    (sw.execAll ms).flows s = ms.foldl (fun b m => m.onFlow s b) (sw.flows s) := by
  induction ms generalizing sw with
  | nil => rfl
  | cons m ms ih => exact ih (sw.exec m)

theorem execAll_groups (sw : Switch) (ms : List OfMsg) (g : Nat) :
    (sw.execAll ms).groups g = ms.foldl (fun b m => m.onGroup g b) (sw.groups g) := by
  induction ms generalizing sw with
  | nil => rfl
  | cons m ms ih => exact ih (sw.exec m)

theorem execAll_meters (sw : Switch) (ms : List OfMsg) (g : Nat) :
    (sw.execAll ms).meters g = ms.foldl (fun b m => m.onMeter g b) (sw.meters g) := by
  induction ms generalizing sw with
  | nil => rfl
  | cons m ms ih => exact ih (sw.exec m)

theorem option_filter_true {α : Type} (b : Option α) {p : α → Bool} (h : ∀ x, p x = true) : b.filter p = b := by
  cases b <;> simp [Option.filter, h]

/-- A message that is neither a deletion nor an addition of a flow leaves flows alone. -/
theorem onFlow_inert {m : OfMsg} (h1 : isDeletion m = false) (h2 : isFlowAdd m = false) (s : Slot)
    (b : Option Body) : m.onFlow s b = b := by
  cases m with
  | flow f =>
    obtain ⟨c, _⟩ := f
    cases c <;> simp [isDeletion, isFlowAdd] at h1 h2
  | group g =>
    obtain ⟨c, i, bs⟩ := g
    cases c
    · exact option_filter_true b (fun x => by simp [OfMsg.kills])
    · simp [isDeletion] at h1
  | meter g =>
    obtain ⟨c, i, bs⟩ := g
    cases c
    · exact option_filter_true b (fun x => by simp [OfMsg.kills])
    · simp [isDeletion] at h1
  | _ => exact option_filter_true b (fun x => by simp [OfMsg.kills])

/-- Deletions filter. -/
theorem onFlow_deletion {m : OfMsg} (h : isDeletion m = true) (s : Slot) (b : Option Body) :
    m.onFlow s b = b.filter (fun x => !m.kills s x) := by
  cases m with
  | flow f =>
    obtain ⟨c, _⟩ := f
    cases c <;> simp [isDeletion] at h <;> simp [OfMsg.onFlow, OfMsg.kills]
  | _ => rfl

theorem foldl_inert (ms : List OfMsg) (s : Slot) (b : Option Body)
    (h : ∀ m ∈ ms, isDeletion m = false ∧ isFlowAdd m = false) :
    ms.foldl (fun b m => m.onFlow s b) b = b := by
  induction ms generalizing b with
  | nil => rfl
  | cons m ms ih =>
    simp only [List.foldl_cons]
    rw [onFlow_inert (h m (by simp)).1 (h m (by simp)).2]
    exact ih b (fun x hx => h x (List.mem_cons_of_mem _ hx))

theorem foldl_deletions (ms : List OfMsg) (s : Slot) (b : Option Body)
    (h : ∀ m ∈ ms, isDeletion m = true ∨ (isDeletion m = false ∧ isFlowAdd m = false)) :
    ms.foldl (fun b m => m.onFlow s b) b =
      b.filter (fun x => !(ms.any (fun m => isDeletion m && m.kills s x))) := by
  induction ms generalizing b with
  | nil => simp only [List.foldl_nil, List.any_nil, Bool.not_false]; exact (option_filter_true b (fun _ => rfl)).symm
  | cons m ms ih =>
    simp only [List.foldl_cons]
    rw [ih _ (fun x hx => h x (List.mem_cons_of_mem _ hx))]
    rcases h m (by simp) with hd | ⟨hd, ha⟩
    · rw [onFlow_deletion hd]
      cases b with
      | none => rfl
      | some x =>
        by_cases hk : m.kills s x <;> simp [Option.filter, hk, hd]
    · rw [onFlow_inert hd ha]
      simp [hd]

/-- Only the messages for a slot matter among additions. -/
def forSlot (s : Slot) : OfMsg → Bool
  | .flow f => isFlowAdd (.flow f) && decide (f.slot = s)
  | _ => false

theorem foldl_adds (ms : List OfMsg) (s : Slot) (b : Option Body) (h : ∀ m ∈ ms, isDeletion m = false) :
    ms.foldl (fun b m => m.onFlow s b) b = (ms.filter (forSlot s)).foldl (fun b m => m.onFlow s b) b := by
  induction ms generalizing b with
  | nil => rfl
  | cons m ms ih =>
    have hrest := fun x hx => h x (List.mem_cons_of_mem m hx)
    rw [List.filter_cons]
    split
    · simp only [List.foldl_cons]; exact ih _ hrest
    · rename_i hf
      simp only [List.foldl_cons]
      have : m.onFlow s b = b := by
        by_cases ha : isFlowAdd m
        · cases m <;> simp [isFlowAdd] at ha
          rename_i f
          have hs : ¬ f.slot = s := by
            intro hs; apply hf; simp [forSlot, hs, isFlowAdd, ha]
          rcases ha with ha | ha <;> simp [OfMsg.onFlow, ha, hs]
        · exact onFlow_inert (h m (by simp)) (by simpa using ha) s b
      rw [this]; exact ih _ hrest

/-- If all additions for a slot have the same command, only the last one matters. -/
theorem foldl_last (ms : List OfMsg) (s : Slot) (b : Option Body)
    (hs : ∀ m ∈ ms, ∃ f, m = .flow f ∧ f.slot = s ∧ isFlowAdd (.flow f))
    (hc : ∀ f g, .flow f ∈ ms → .flow g ∈ ms → f.cmd = g.cmd) :
    ms.foldl (fun b m => m.onFlow s b) b =
      match ms.getLast? with
      | none => b
      | some m => m.onFlow s b := by
  induction ms using list_snoc_induction generalizing b with
  | h0 => rfl
  | h1 l a ih =>
    rw [List.foldl_append]
    simp only [List.foldl_cons, List.foldl_nil, List.getLast?_append, List.getLast?_singleton, Option.some_or]
    rw [ih b (fun m hm => hs m (by simp [hm])) (fun f g hf hg => hc f g (by simp [hf]) (by simp [hg]))]
    cases hl : l.getLast? with
    | none => rfl
    | some m =>
      have hm : m ∈ l := List.mem_of_getLast? hl
      obtain ⟨f, rfl, hfs, hfa⟩ := hs m (by simp [hm])
      obtain ⟨g, rfl, hgs, hga⟩ := hs a (by simp)
      have hcc := hc f g (by simp [hm]) (by simp)
      simp only
      cases hgc : g.cmd with
      | add => simp [OfMsg.onFlow, hgc, hgs]
      | modifyStrict =>
        rw [hgc] at hcc
        simp only [OfMsg.onFlow, hgc, hgs, hcc, hfs, if_true]
        cases b <;> rfl
      | delete => simp [isFlowAdd, hgc] at hga
      | deleteStrict => simp [isFlowAdd, hgc] at hga

theorem kind_deletion {m : OfMsg} : isDeletion m = true ↔ (msgKind m = .delete ∨ msgKind m = .deleteglobal) := by
  cases m with
  | flow f =>
    obtain ⟨c, _⟩ := f
    cases c <;> simp only [isDeletion, msgKind] <;> grind
  | group g => obtain ⟨c, i, _⟩ := g; cases c <;> cases i <;> simp [isDeletion, msgKind]
  | meter g => obtain ⟨c, i, _⟩ := g; cases c <;> cases i <;> simp [isDeletion, msgKind]
  | _ => simp [isDeletion, msgKind]

theorem kind_flowadd {m : OfMsg} : isFlowAdd m = true ↔ msgKind m = .flowaddmod := by
  cases m with
  | flow f =>
    obtain ⟨c, _⟩ := f
    cases c <;> simp [isFlowAdd, msgKind] <;> (try split) <;> simp_all
  | group g => obtain ⟨c, i, _⟩ := g; cases c <;> cases i <;> simp [isFlowAdd, msgKind]
  | meter g => obtain ⟨c, i, _⟩ := g; cases c <;> cases i <;> simp [isFlowAdd, msgKind]
  | _ => simp [isFlowAdd, msgKind]

theorem inert_of_kind {m : OfMsg} (h : msgKind m ≠ .delete) (h' : msgKind m ≠ .deleteglobal)
    (h'' : msgKind m ≠ .flowaddmod) : isDeletion m = false ∧ isFlowAdd m = false := by
  constructor
  · cases hd : isDeletion m with
    | false => rfl
    | true => rcases kind_deletion.1 hd with h1 | h1 <;> contradiction
  · cases hd : isFlowAdd m with
    | false => rfl
    | true => exact absurd (kind_flowadd.1 hd) h''

/-- Messages that look the same do the same. -/
theorem strKey_flow {m : OfMsg} {f : FlowMod} (h : strKey m = strKey (.flow f)) :
    ∃ g, m = .flow g ∧ g.cmd = f.cmd ∧ g.table = f.table ∧ g.priority = f.priority ∧
      g.mtch.items = f.mtch.items ∧ g.cookie = f.cookie ∧ g.inst = f.inst ∧ g.outPort = f.outPort := by
  cases m with
  | flow g =>
    simp only [strKey, Key.str.injEq, OfMsg.flow.injEq, FlowMod.mk.injEq, Match.mk.injEq] at h
    grind
  | _ => simp [strKey] at h

theorem strKey_nonflow {m m' : OfMsg} (h : strKey m = strKey m') (hn : ∀ f, m' ≠ .flow f) : m = m' := by
  cases m' with
  | flow f => exact absurd rfl (hn f)
  | _ => cases m <;> simp_all [strKey]

theorem kills_strKey {m m' : OfMsg} (h : strKey m = strKey m') (s : Slot) (b : Body) :
    m.kills s b = m'.kills s b := by
  by_cases hf : ∃ f, m' = .flow f
  · obtain ⟨f, rfl⟩ := hf
    obtain ⟨g, rfl, h1, h2, h3, h4, h5, h6, h7⟩ := strKey_flow h
    simp only [OfMsg.kills, FlowMod.kills, FlowMod.tableOk, FlowMod.outPortOk, h1, h2, h3, h4, h7]
  · rw [strKey_nonflow h (fun f hm => hf ⟨f, hm⟩)]

theorem isDeletion_strKey {m m' : OfMsg} (h : strKey m = strKey m') : isDeletion m = isDeletion m' := by
  by_cases hf : ∃ f, m' = .flow f
  · obtain ⟨f, rfl⟩ := hf
    obtain ⟨g, rfl, h1, _⟩ := strKey_flow h
    simp [isDeletion, h1]
  · rw [strKey_nonflow h (fun f hm => hf ⟨f, hm⟩)]

theorem strKey_sameContent {m m' : OfMsg} (h : strKey m = strKey m') : sameContent m m' := by
  by_cases hf : ∃ f, m' = .flow f
  · obtain ⟨f, rfl⟩ := hf
    obtain ⟨g, rfl, _⟩ := strKey_flow h
    simpa [strKey, sameContent] using h
  · have := strKey_nonflow h (fun f hm => hf ⟨f, hm⟩)
    subst this
    cases m <;> simp [sameContent]

theorem coversItems_mono {a b f : List MatchItem} (h : ∀ i ∈ a, i ∈ b) (hb : coversItems b f = true) :
    coversItems a f = true := by
  unfold coversItems at *
  rw [List.all_eq_true] at *
  exact fun i hi => hb i (h i hi)

theorem kills_reaches {f : FlowMod} {s : Slot} {b : Body} (h : f.kills s b = true) : reaches f s := by
  unfold FlowMod.kills at h
  unfold reaches
  cases hc : f.cmd <;> simp [hc] at h ⊢
  · exact h.1
  · exact ⟨h.1.1.1, h.1.1.2, h.1.2⟩

/-- Deletions that survive among deletes: every deletion of the batch has a surviving one that subsumes it. -/
theorem dels_subsume {sh : List OfMsg → List OfMsg} {ms dels : List OfMsg}
    (hd : dedupeOverlaps sh false strKey (suppressed ms) = some dels) {m : OfMsg} (hm : m ∈ ms)
    (hk : isDeletion m = true) :
    ∃ m', (m' ∈ dels ∨ m' ∈ seg sh ms .deleteglobal) ∧ isDeletion m' = true ∧ Subsumes m' m ∧
      (m' ∈ dels ∨ ∀ f, m' = .flow f → f.table = tableAll ∧ f.mtch.items = []) := by
  rcases kind_deletion.1 hk with hkind | hkind
  · -- an ordinary deletion
    by_cases hsup : m ∈ suppressed ms
    · obtain ⟨m1, hm1, hs1⟩ := exists_mem_values (key := strKey) hsup
      have hm1d : m1 ∈ dedupe sh false strKey (suppressed ms) := mem_dedupe_false.2 hm1
      have hdel1 : isDeletion m1 = true := by rw [isDeletion_strKey hs1]; exact hk
      rw [dedupeOverlaps_eq] at hd
      simp only at hd
      split at hd
      · split at hd
        · cases hd
        · cases hd
          by_cases hkeep : keepDel (overlapMatches (dedupe sh false strKey (suppressed ms))) m1
          · exact ⟨m1, Or.inl (List.mem_filter.2 ⟨hm1d, hkeep⟩), hdel1, Or.inl (strKey_sameContent hs1),
              Or.inl (List.mem_filter.2 ⟨hm1d, hkeep⟩)⟩
          · -- subsumed by a delete in all tables
            simp only [keepDel, Bool.or_eq_true, not_or, noOverlap] at hkeep
            obtain ⟨hk1, hk2⟩ := hkeep
            have hk2' : (overlapMatches (dedupe sh false strKey (suppressed ms))).any
              (fun o => o.all (fun i => (matchItems m1).contains i)) = true := by simpa using hk2
            obtain ⟨o, ho, hsub⟩ := List.any_eq_true.1 hk2'
            obtain ⟨w, hw, hwo⟩ := List.mem_filterMap.1 ho
            cases w with
            | flow f =>
              simp only at hwo
              split at hwo
              · rename_i hft
                cases hwo
                have hwdel : isDeletion (.flow f) = true :=
                  kind_deletion.2 (Or.inl (mem_suppressed (mem_of_mem_values (mem_dedupe_false.1 hw))).2)
                have hwin : OfMsg.flow f ∈ (dedupe sh false strKey (suppressed ms)).filter
                    (keepDel (overlapMatches (dedupe sh false strKey (suppressed ms)))) :=
                  List.mem_filter.2 ⟨hw, by simp [keepDel, tableId?, hft.1]⟩
                refine ⟨.flow f, Or.inl hwin, hwdel, ?_, Or.inl hwin⟩
                by_cases hfm : ∃ g, m = .flow g
                · obtain ⟨g, rfl⟩ := hfm
                  obtain ⟨g1, rfl, _, _, _, hit, _⟩ := strKey_flow hs1
                  right; right
                  refine ⟨hwdel, hk, hft.1, ?_⟩
                  intro i hi
                  have := List.all_eq_true.1 hsub i hi
                  simp [matchItems] at this
                  rw [← hit]; exact this
                · -- not a flow message: excluded in this branch
                  rename_i hnone
                  exfalso
                  apply hnone
                  have heq := strKey_nonflow hs1 (fun f hm => hfm ⟨f, hm⟩)
                  subst heq
                  refine List.any_eq_true.2 ⟨m1, hm1d, ?_⟩
                  cases m1 <;> simp [tableId?] at hfm ⊢
              · cases hwo
            | _ => simp at hwo
      · cases hd
        exact ⟨m1, Or.inl hm1d, hdel1, Or.inl (strKey_sameContent hs1), Or.inl hm1d⟩
    · -- suppressed by a global delete
      unfold suppressed at hsup
      simp only at hsup
      split at hsup
      · exact absurd (mem_ofKind.2 ⟨hm, hkind⟩) hsup
      · have : (ofKind ms .deleteglobal).map msgType |>.contains (msgType m) := by
          cases h : ((ofKind ms .deleteglobal).map msgType).contains (msgType m) with
          | true => rfl
          | false => exact absurd (List.mem_filter.2 ⟨mem_ofKind.2 ⟨hm, hkind⟩, by rw [h]; rfl⟩) hsup
        obtain ⟨g, hg, hgt⟩ := List.mem_map.1 (List.contains_iff_mem.1 this)
        have hgk := (mem_ofKind.1 hg)
        obtain ⟨g', hg', hgs⟩ := exists_seg (sh := sh) hgk.1
        rw [hgk.2] at hg'
        have hgdel : isDeletion g' = true := by
          rw [isDeletion_strKey hgs]; exact kind_deletion.2 (Or.inr hgk.2)
        refine ⟨g', Or.inr hg', hgdel, ?_, Or.inr ?_⟩
        · have hk' := (mem_seg hg').2
          have htype : msgType g' = msgType m := by
            rw [← hgt]
            by_cases hf : ∃ f, g = .flow f
            · obtain ⟨f, rfl⟩ := hf
              obtain ⟨f', rfl, _⟩ := strKey_flow hgs
              rfl
            · rw [strKey_nonflow hgs (fun f hm => hf ⟨f, hm⟩)]
          right
          cases g' with
          | flow f' =>
            cases m with
            | flow f =>
              right
              refine ⟨hgdel, hk, ?_, ?_⟩
              · obtain ⟨c, _⟩ := f'
                cases c <;> simp [msgKind] at hk' <;> exact hk'.1
              · obtain ⟨c, _⟩ := f'
                cases c <;> simp [msgKind] at hk' <;> simp [hk'.2]
            | _ => simp [msgType] at htype
          | group f' =>
            obtain ⟨c, i, _⟩ := f'
            cases m with
            | group f => obtain ⟨c2, i2, _⟩ := f; cases c <;> cases i <;> cases c2 <;> simp_all [msgKind, isDeletion]
            | _ => simp [msgType] at htype
          | meter f' =>
            obtain ⟨c, i, _⟩ := f'
            cases m with
            | meter f => obtain ⟨c2, i2, _⟩ := f; cases c <;> cases i <;> cases c2 <;> simp_all [msgKind, isDeletion]
            | _ => simp [msgType] at htype
          | _ => simp [isDeletion] at hgdel
        · rintro f rfl
          have hk' := (mem_seg hg').2
          obtain ⟨c, _⟩ := f
          cases c <;> simp [msgKind] at hk' <;> exact hk'
  · obtain ⟨m', hm', hs'⟩ := exists_seg (sh := sh) hm
    rw [hkind] at hm'
    refine ⟨m', Or.inr hm', by rw [isDeletion_strKey hs']; exact hk, Or.inl (strKey_sameContent hs'), Or.inr ?_⟩
    rintro f rfl
    have hk' := (mem_seg hm').2
    obtain ⟨c, _⟩ := f
    cases c <;> simp [msgKind] at hk' <;> exact hk'

/-- A deletion that subsumes another one removes at least as much. -/
theorem subsumes_kills {m' m : OfMsg} (hd' : isDeletion m' = true) (hd : isDeletion m = true)
    (hs : Subsumes m' m)
    (hplain : ∀ f, m' = .flow f → f.table = tableAll → f.cmd = .delete ∧ f.outPort = none)
    {s : Slot} {b : Body} (hk : m.kills s b = true) : m'.kills s b = true := by
  rcases hs with hs | hs
  · cases m' with
    | flow f =>
      cases m with
      | flow g =>
        have : strKey (.flow f) = strKey (.flow g) := by simpa [sameContent, strKey] using hs
        rw [kills_strKey this]; exact hk
      | _ => simp [sameContent] at hs
    | _ => cases m <;> simp_all [sameContent]
  · cases m' with
    | flow f =>
      cases m with
      | flow g =>
        rcases hs with ⟨ha, _⟩ | ⟨_, _, ht, hsub⟩
        · obtain ⟨c, _⟩ := f
          cases c <;> simp [isFlowAdd, isDeletion] at ha hd'
        · obtain ⟨hcmd, hout⟩ := hplain f rfl ht
          have hcov : coversItems f.mtch.items s.items = true := by
            apply coversItems_mono hsub
            have hgr := kills_reaches hk
            unfold reaches at hgr
            cases hc : g.cmd with
            | delete => simp [hc] at hgr; exact hgr.2
            | deleteStrict =>
              simp [hc] at hgr
              rw [hgr.2.2]
              unfold coversItems
              rw [List.all_eq_true]
              intro i hi
              refine List.any_eq_true.2 ⟨i, hi, ?_⟩
              obtain ⟨fl, v, mk⟩ := i
              cases mk <;> simp [MatchItem.covers]
            | add => simp [hc] at hgr
            | modifyStrict => simp [hc] at hgr
          simp [OfMsg.kills, FlowMod.kills, hcmd, FlowMod.tableOk, ht, hcov, FlowMod.outPortOk, hout]
      | _ => exact absurd hs (by simp)
    | group f =>
      cases m with
      | group g =>
        obtain ⟨c, i, bs⟩ := f
        obtain ⟨c2, i2, bs2⟩ := g
        simp at hs
        obtain ⟨rfl, rfl, rfl⟩ := hs
        cases i2 with
        | none => exact hk
        | some i2 =>
          simp only [OfMsg.kills, Body.usesGroup] at hk ⊢
          obtain ⟨i, hi, hi2⟩ := List.any_eq_true.1 hk
          refine List.any_eq_true.2 ⟨i, hi, ?_⟩
          cases i with
          | apply acts =>
            simp only at hi2 ⊢
            obtain ⟨a, ha, ha2⟩ := List.any_eq_true.1 hi2
            refine List.any_eq_true.2 ⟨a, ha, ?_⟩
            simp at ha2; subst ha2; rfl
          | _ => simp at hi2
      | _ => exact absurd hs (by simp)
    | meter f =>
      cases m with
      | meter g =>
        obtain ⟨c, i, bs⟩ := f
        obtain ⟨c2, i2, bs2⟩ := g
        simp at hs
        obtain ⟨rfl, rfl, rfl⟩ := hs
        cases i2 with
        | none => exact hk
        | some i2 =>
          simp only [OfMsg.kills, Body.usesMeter] at hk ⊢
          obtain ⟨i, hi, hi2⟩ := List.any_eq_true.1 hk
          refine List.any_eq_true.2 ⟨i, hi, ?_⟩
          cases i with
          | meter a => rfl
          | _ => simp at hi2
      | _ => exact absurd hs (by simp)
    | _ => exact absurd hs (by cases m <;> simp)

end Faucet.FlowReorder
