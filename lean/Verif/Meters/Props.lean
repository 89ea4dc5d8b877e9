import Verif.Meters.Model
import Mathlib.Data.List.Nodup

/-!
# Meters of a switch: C78
-/

namespace Faucet.Meters
open Faucet.OF Faucet.FlowReorder

/-! ## One batch -/

theorem others_hits {e : Extra} {g : Nat} : e.others.any (hitsMeter g) = false := by
  rw [List.any_eq_false]
  intro m hm
  cases m with
  | meter x => exact absurd rfl (e.quiet _ hm x)
  | _ => simp [hitsMeter]

theorem others_adds {e : Extra} {g : Nat} : e.others.findSome? (addsMeter g) = none :=
  findSome_none _ _ (fun m hm => by
    cases m with
    | meter x => exact absurd rfl (e.quiet _ hm x)
    | _ => rfl)

theorem any_filter_del (L : List OfMsg) (g : Nat) : (L.filter isDeletion).any (hitsMeter g) = L.any (hitsMeter g) := by
  induction L with
  | nil => rfl
  | cons m L ih =>
    rw [List.filter_cons]
    split
    · simp [ih]
    · rename_i h
      have : hitsMeter g m = false := by
        cases hh : hitsMeter g m with
        | false => rfl
        | true => exact absurd (hitsMeter_del hh) h
      simp [this, ih]

/-- The meter table after a batch: all deletions, then the first addition for each meter. -/
theorem send_meters {e : Extra} {sw sw' : Switch} {ms : List OfMsg} (h : send e sw ms = some sw') (g : Nat) :
    sw'.meters g = (if ms.any (hitsMeter g) then none else sw.meters g).or (ms.findSome? (addsMeter g)) := by
  unfold send at h
  cases hr : reorder e.sh e.bar (ms ++ e.others) with
  | none => rw [hr] at h; simp at h
  | some out =>
    rw [hr] at h
    simp only [Option.map_some, Option.some.injEq] at h
    subst h
    rw [(groups_meters_eq e.perm hr sw).2, execAll_meters]
    unfold deletesFirst
    rw [fold_split (fun m b => m.onMeter g b) (hitsMeter g) (addsMeter g) (fun m b => onMeter_eq m g b)]
    · rw [any_filter_del, findSome_filter]
      · rw [List.any_append, others_hits, List.findSome?_append, others_adds]
        simp
      · intro m hm
        have := addsMeter_kind hm
        cases hd : isDeletion m with
        | false => rfl
        | true => rcases kind_deletion.1 hd with h | h <;> rw [h] at this <;> cases this
    · intro m hm
      have hd := (List.mem_filter.1 hm).2
      cases ha : addsMeter g m with
      | none => rfl
      | some x =>
        have := addsMeter_kind (g := g) (m := m) (by simp [ha])
        rcases kind_deletion.1 hd with h | h <;> rw [h] at this <;> cases this
    · intro m hm
      have hd := (List.mem_filter.1 hm).2
      cases hh : hitsMeter g m with
      | false => rfl
      | true => rw [hitsMeter_del hh] at hd; simp at hd

theorem adds_map (l : List (Nat × Meter)) (g r : Nat) (hn : (l.map (·.2.mid)).Nodup) :
    (l.map (fun nm => addMsg nm.2)).findSome? (addsMeter g) = some r ↔ ∃ n m, (n, m) ∈ l ∧ m.mid = g ∧ m.rate = r := by
  induction l with
  | nil => simp
  | cons x l ih =>
    obtain ⟨n, m⟩ := x
    rw [List.map_cons, List.nodup_cons] at hn
    rw [List.map_cons, List.findSome?_cons]
    by_cases hm : m.mid = g
    · have ha : addsMeter g (addMsg m) = some m.rate := by simp [addsMeter, addMsg, hm]
      simp only [ha]
      constructor
      · intro h
        cases h
        exact ⟨n, m, by simp, hm, rfl⟩
      · rintro ⟨n', m', hmem, h1, h2⟩
        rcases List.mem_cons.1 hmem with heq | hin
        · cases heq; rw [h2]
        · exact absurd (List.mem_map.2 ⟨(n', m'), hin, by simp [h1, hm]⟩) hn.1
    · have ha : addsMeter g (addMsg m) = none := by simp [addsMeter, addMsg, hm]
      simp only [ha]
      rw [ih hn.2]
      constructor
      · rintro ⟨n', m', hin, h⟩; exact ⟨n', m', List.mem_cons_of_mem _ hin, h⟩
      · rintro ⟨n', m', hmem, h1, h2⟩
        rcases List.mem_cons.1 hmem with heq | hin
        · cases heq; exact absurd h1 hm
        · exact ⟨n', m', hin, h1, h2⟩

theorem map_hits (l : List (Nat × Meter)) (g : Nat) : (l.map (fun nm => addMsg nm.2)).any (hitsMeter g) = false := by
  rw [List.any_eq_false]
  intro m hm
  obtain ⟨x, _, rfl⟩ := List.mem_map.1 hm
  simp [hitsMeter, addMsg]

theorem dels_adds (l : List (Nat × Meter)) (g : Nat) :
    (l.map (fun nm => delMsg nm.2.mid)).findSome? (addsMeter g) = none :=
  findSome_none _ _ (fun m hm => by obtain ⟨x, _, rfl⟩ := List.mem_map.1 hm; rfl)

/-! ## Names -/

theorem find_mem {ms : List (Nat × Meter)} (hn : (ms.map (·.1)).Nodup) {n : Nat} {m : Meter} :
    find ms n = some m ↔ (n, m) ∈ ms := by
  induction ms with
  | nil => simp [find]
  | cons x l ih =>
    obtain ⟨n', m'⟩ := x
    rw [List.map_cons, List.nodup_cons] at hn
    unfold find at ih ⊢
    rw [List.lookup_cons]
    by_cases h : n = n'
    · subst h
      simp only [beq_self_eq_true]
      constructor
      · intro he; cases he; simp
      · intro hm
        rcases List.mem_cons.1 hm with heq | hin
        · cases heq; rfl
        · exact absurd (List.mem_map.2 ⟨(n, m), hin, rfl⟩) hn.1
    · have hb : (n == n') = false := by simp [h]
      simp only [hb]
      rw [ih hn.2]
      constructor
      · intro hin; exact List.mem_cons_of_mem _ hin
      · intro hm
        rcases List.mem_cons.1 hm with heq | hin
        · cases heq; exact absurd rfl h
        · exact hin

theorem find_none {ms : List (Nat × Meter)} {n : Nat} : find ms n = none ↔ ∀ m, (n, m) ∉ ms := by
  unfold find
  rw [List.lookup_eq_none_iff]
  constructor
  · intro h m hm; simpa using h _ hm
  · intro h x hx
    obtain ⟨n', m'⟩ := x
    by_cases he : n = n'
    · subst he; exact absurd hx (h m')
    · simpa using he

/-- What is added: the meters that are not as they were. -/
theorem mem_news {old new : Cfg} (ho : Valid old) {n : Nat} {m : Meter} :
    (n, m) ∈ added old new ++ changedNew old new ↔ (n, m) ∈ new.meters ∧ (n, m) ∉ old.meters := by
  unfold added changedNew
  rw [List.mem_append, List.mem_filter, List.mem_filter]
  cases hf : find old.meters n with
  | none =>
    have := find_none.1 hf m
    simp [hf, this]
  | some m' =>
    have hm' := (find_mem ho.names).1 hf
    by_cases he : m' = m
    · subst he; simp [hf, hm']
    · have : (n, m) ∉ old.meters := fun hm => by
        have := (find_mem ho.names).2 hm
        rw [hf] at this
        exact he (Option.some.inj this)
      simp [hf, he, this]

theorem news_ids {old new : Cfg} (hn : Valid new) : ((added old new ++ changedNew old new).map (·.2.mid)).Nodup := by
  have hl : ∀ (l : List (Nat × Meter)), (l.map (·.2.mid)).Nodup → ∀ p q : Nat × Meter → Bool, (∀ x, p x = true → q x = true → False) →
      ((l.filter p ++ l.filter q).map (·.2.mid)).Nodup := by
    intro l hl p q hpq
    rw [List.map_append, List.nodup_append]
    refine ⟨hl.sublist (List.Sublist.map _ List.filter_sublist), hl.sublist (List.Sublist.map _ List.filter_sublist), ?_⟩
    intro a ha b hb hab
    obtain ⟨x, hx, rfl⟩ := List.mem_map.1 ha
    obtain ⟨y, hy, rfl⟩ := List.mem_map.1 hb
    have hxy : x = y := List.inj_on_of_nodup_map hl (List.mem_filter.1 hx).1 (List.mem_filter.1 hy).1 hab
    subst hxy
    exact hpq x (List.mem_filter.1 hx).2 (List.mem_filter.1 hy).2
  refine hl new.meters hn.ids _ _ (fun x h1 h2 => ?_)
  cases hf : find old.meters x.1 with
  | none => simp [hf] at h2
  | some m => simp [hf] at h1

/-- What is deleted: the meters that are not as they were. -/
theorem mem_olds {old new : Cfg} (hn : Valid new) {n : Nat} {m : Meter} :
    (n, m) ∈ deleted old new ++ changedOld old new ↔ (n, m) ∈ old.meters ∧ (n, m) ∉ new.meters := by
  unfold deleted changedOld
  rw [List.mem_append, List.mem_filter, List.mem_filter]
  cases hf : find new.meters n with
  | none =>
    have := find_none.1 hf m
    simp [hf, this]
  | some m' =>
    have hm' := (find_mem hn.names).1 hf
    by_cases he : m = m'
    · subst he; simp [hf, hm']
    · have : (n, m) ∉ new.meters := fun hm => by
        have := (find_mem hn.names).2 hm
        rw [hf] at this
        exact he (Option.some.inj this).symm
      simp [hf, he, this]

/-! ## Cold start -/

theorem cold_meters {c : Cfg} (hc : Valid c) (hl : c.defined = true ∨ c.packetin ≠ 0 ∨ c.slowpath ≠ 0) {e : Extra} {sw sw' : Switch}
    (h : send e sw (coldMsgs c) = some sw') (id r : Nat) : sw'.meters id = some r ↔ Asks c id r := by
  rw [send_meters h]
  have hd : (c.defined || c.packetin != 0 || c.slowpath != 0) = true := by
    rcases hl with h | h | h <;> simp [h]
  have hh : (coldMsgs c).any (hitsMeter id) = true := by
    unfold coldMsgs
    rw [if_pos hd]
    simp [delAll, hitsMeter]
  rw [hh]
  simp only [if_true, Option.none_or]
  have hr : ∀ n m, (n, m) ∈ c.meters → m.mid ≤ 4294901760 := fun n m hm => hc.range _ hm
  have ha := adds_map c.meters id r hc.ids
  unfold coldMsgs
  rw [if_pos hd]
  simp only [List.findSome?_append]
  have h0 : [delAll].findSome? (addsMeter id) = none := rfl
  rw [h0, Option.none_or]
  by_cases hp : c.packetin = 0
  · have e1 : (if (c.packetin != 0) = true then [addMsg ⟨ofpmController, c.packetin⟩] else []) = ([] : List OfMsg) := by simp [hp]
    rw [e1]
    by_cases hs : c.slowpath = 0
    · have e2 : (if (c.slowpath != 0) = true then [addMsg ⟨ofpmSlowpath, c.slowpath⟩] else []) = ([] : List OfMsg) := by simp [hs]
      rw [e2]
      simp only [List.findSome?_nil, Option.none_or]
      rw [ha]
      simp [Asks, hp, hs]
    · have e2 : (if (c.slowpath != 0) = true then [addMsg ⟨ofpmSlowpath, c.slowpath⟩] else []) = [addMsg ⟨ofpmSlowpath, c.slowpath⟩] := by
        simp [hs]
      rw [e2]
      by_cases hi : id = ofpmSlowpath
      · subst hi
        have : [addMsg ⟨ofpmSlowpath, c.slowpath⟩].findSome? (addsMeter ofpmSlowpath) = some c.slowpath := by
          simp [addsMeter, addMsg]
        rw [this]
        simp only [List.findSome?_nil, Option.none_or, Option.some_or, Option.some.injEq]
        constructor
        · intro h; exact Or.inr (Or.inl ⟨rfl, hs, h.symm⟩)
        · rintro (⟨h, _⟩ | ⟨_, _, h⟩ | ⟨n, m, hm, h1, _⟩)
          · simp [ofpmSlowpath] at h
          · exact h.symm
          · have := hr n m hm; simp [ofpmSlowpath] at h1; omega
      · have : [addMsg ⟨ofpmSlowpath, c.slowpath⟩].findSome? (addsMeter id) = none := by
          simp [addsMeter, addMsg, Ne.symm hi]
        rw [this]
        simp only [List.findSome?_nil, Option.none_or]
        rw [ha]
        have hi' : id ≠ 0xfffffffd := hi
        simp only [Asks, hp, ne_eq, not_true_eq_false, false_and, and_false, false_or, hi', ]
  · have e1 : (if (c.packetin != 0) = true then [addMsg ⟨ofpmController, c.packetin⟩] else []) = [addMsg ⟨ofpmController, c.packetin⟩] := by
      simp [hp]
    rw [e1]
    by_cases hi : id = ofpmController
    · subst hi
      have : [addMsg ⟨ofpmController, c.packetin⟩].findSome? (addsMeter ofpmController) = some c.packetin := by
        simp [addsMeter, addMsg]
      rw [this]
      simp only [Option.some_or, Option.some.injEq]
      constructor
      · intro h; exact Or.inl ⟨rfl, hp, h.symm⟩
      · rintro (⟨_, _, h⟩ | ⟨h, _⟩ | ⟨n, m, hm, h1, _⟩)
        · exact h.symm
        · simp [ofpmController] at h
        · have := hr n m hm; simp [ofpmController] at h1; omega
    · have : [addMsg ⟨ofpmController, c.packetin⟩].findSome? (addsMeter id) = none := by
        simp [addsMeter, addMsg, Ne.symm hi]
      rw [this]
      have hi' : id ≠ 0xfffffffe := hi
      by_cases hs : c.slowpath = 0
      · have e2 : (if (c.slowpath != 0) = true then [addMsg ⟨ofpmSlowpath, c.slowpath⟩] else []) = ([] : List OfMsg) := by simp [hs]
        rw [e2]
        simp only [List.findSome?_nil, Option.none_or]
        rw [ha]
        simp only [Asks, hs, hi', ne_eq, not_true_eq_false, false_and, and_false, false_or]
      · have e2 : (if (c.slowpath != 0) = true then [addMsg ⟨ofpmSlowpath, c.slowpath⟩] else []) = [addMsg ⟨ofpmSlowpath, c.slowpath⟩] := by
          simp [hs]
        rw [e2]
        by_cases hi2 : id = ofpmSlowpath
        · subst hi2
          have : [addMsg ⟨ofpmSlowpath, c.slowpath⟩].findSome? (addsMeter ofpmSlowpath) = some c.slowpath := by
            simp [addsMeter, addMsg]
          rw [this]
          simp only [Option.none_or, Option.some_or, Option.some.injEq]
          constructor
          · intro h; exact Or.inr (Or.inl ⟨rfl, hs, h.symm⟩)
          · rintro (⟨h, _⟩ | ⟨_, _, h⟩ | ⟨n, m, hm, h1, _⟩)
            · simp [ofpmSlowpath] at h
            · exact h.symm
            · have := hr n m hm; simp [ofpmSlowpath] at h1; omega
        · have : [addMsg ⟨ofpmSlowpath, c.slowpath⟩].findSome? (addsMeter id) = none := by
            simp [addsMeter, addMsg, Ne.symm hi2]
          rw [this]
          simp only [Option.none_or]
          rw [ha]
          have hi2' : id ≠ 0xfffffffd := hi2
          simp only [Asks, hi', hi2', false_and, false_or]

/-! ## Warm reload -/

/-- A reload that keeps every meter as it was adds the others. -/
theorem warm_keeps {old new : Cfg} (ho : Valid old) (hn : Valid new) (hk : ∀ x ∈ old.meters, x ∈ new.meters)
    (hp : old.packetin = new.packetin) (hs : old.slowpath = new.slowpath) {e : Extra} {sw sw' : Switch}
    (hg : ∀ id r, sw.meters id = some r ↔ Asks old id r)
    (h : send e sw (warmMsgs old new) = some sw') (id r : Nat) : sw'.meters id = some r ↔ Asks new id r := by
  rw [send_meters h]
  have hd : deleted old new ++ changedOld old new = [] :=
    List.eq_nil_iff_forall_not_mem.2 (fun x hx => by
      obtain ⟨n, m⟩ := x
      have := (mem_olds hn).1 hx
      exact this.2 (hk _ this.1))
  unfold warmMsgs
  rw [hd, List.map_nil, List.nil_append, map_hits]
  simp only [Bool.false_eq_true, if_false]
  have ha := fun r => adds_map (added old new ++ changedNew old new) id r (news_ids hn)
  have hAsks : ∀ r, Asks new id r ↔ Asks old id r ∨ ∃ n m, (n, m) ∈ added old new ++ changedNew old new ∧ m.mid = id ∧ m.rate = r := by
    intro r
    unfold Asks
    rw [← hp, ← hs]
    constructor
    · rintro (h | h | ⟨n, m, hm, h⟩)
      · exact Or.inl (Or.inl h)
      · exact Or.inl (Or.inr (Or.inl h))
      · by_cases hmo : (n, m) ∈ old.meters
        · exact Or.inl (Or.inr (Or.inr ⟨n, m, hmo, h⟩))
        · exact Or.inr ⟨n, m, (mem_news ho).2 ⟨hm, hmo⟩, h⟩
    · rintro ((h | h | ⟨n, m, hm, h⟩) | ⟨n, m, hm, h⟩)
      · exact Or.inl h
      · exact Or.inr (Or.inl h)
      · exact Or.inr (Or.inr ⟨n, m, hk _ hm, h⟩)
      · exact Or.inr (Or.inr ⟨n, m, ((mem_news ho).1 hm).1, h⟩)
  cases hsw : sw.meters id with
  | none =>
    rw [Option.none_or, ha, hAsks]
    constructor
    · exact Or.inr
    · rintro (h | h)
      · rw [← hg, hsw] at h; cases h
      · exact h
  | some r0 =>
    have h0 := (hg id r0).1 hsw
    rw [Option.some_or, hAsks]
    constructor
    · intro h; cases h; exact Or.inl h0
    · rintro (h | ⟨n, m, hm, h1, h2⟩)
      · rw [← hg, hsw] at h; exact h
      · obtain ⟨hmn, hmo⟩ := (mem_news ho).1 hm
        have hle := hn.range _ hmn
        rcases h0 with ⟨h, _⟩ | ⟨h, _⟩ | ⟨n', m', hm', h1', h2'⟩
        · simp only at hle; omega
        · simp only at hle; omega
        · have : (n', m') = (n, m) := List.inj_on_of_nodup_map hn.ids (hk _ hm') hmn (by simp [h1, h1'])
          rw [this] at hm'
          exact absurd hm' hmo

/-! ## Histories -/

theorem run_snoc (s : St) (h : List Ev) (e : Ev) : run s (h ++ [e]) = (run s h).bind (fun s' => step s' e) := by
  induction h generalizing s with
  | nil => simp [run]
  | cons x h ih =>
    simp only [List.cons_append, run]
    cases step s x with
    | none => rfl
    | some s' => simpa using ih s'

def evCfg (c : Cfg) : Ev → Cfg
  | .reload new _ _ => new
  | _ => c

theorem cfgAfter_snoc (c : Cfg) (h : List Ev) (e : Ev) :
    cfgAfter c (h ++ [e]) = evCfg (cfgAfter c h) e := by
  induction h generalizing c with
  | nil => cases e <;> rfl
  | cons x h ih => cases x <;> exact ih _

theorem step_cfg {s s' : St} {e : Ev} (h : step s e = some s') :
    s'.cfg = evCfg s.cfg e := by
  cases e with
  | connect x =>
    obtain ⟨sw, _, h2⟩ := Option.map_eq_some_iff.1 h
    rw [← h2]; rfl
  | disconnect => cases h; rfl
  | restart => cases h; rfl
  | msgs x =>
    simp only [step] at h
    split at h
    · obtain ⟨sw, _, h2⟩ := Option.map_eq_some_iff.1 h
      rw [← h2]; rfl
    · cases h; rfl
  | reload new o x =>
    simp only [step] at h
    split at h
    · cases h; rfl
    · split at h
      · obtain ⟨sw, _, h2⟩ := Option.map_eq_some_iff.1 h
        rw [← h2]; rfl
      · cases h; rfl

theorem run_cfg {s s' : St} {h : List Ev} (hr : run s h = some s') : s'.cfg = cfgAfter s.cfg h := by
  induction h generalizing s with
  | nil => cases hr; rfl
  | cons e h ih =>
    obtain ⟨s1, h1, h2⟩ := Option.bind_eq_some_iff.1 hr
    rw [ih h2, step_cfg h1]
    cases e <;> rfl

theorem cfg_valid {c : Cfg} (hc : Valid c) {h : List Ev} (hv : ∀ new o e, .reload new o e ∈ h → Valid new) : Valid (cfgAfter c h) := by
  induction h generalizing c with
  | nil => exact hc
  | cons e h ih =>
    have ht : ∀ new o x, Ev.reload new o x ∈ h → Valid new := fun new o x hm => hv new o x (List.mem_cons_of_mem _ hm)
    cases e with
    | reload new o x => exact ih (hv new o x (by simp)) ht
    | _ => exact ih hc ht

/-- C78: while a switch is connected its meters are exactly those the configuration asks for, with the rates it asks for, whatever
was on it before, whatever else it is sent, and across restarts, lost connections and reloads: provided that, since the switch's last
connection, no reload removed or changed a meter (`hkeep`), and that the configuration had a meter or a limit when it connected
(`hask`).

Missing: reloads that remove or change a meter (`Ex.other_meters_deleted_defect`), and connections under a configuration without
meters (`Ex.stale_meter_defect`). -/
theorem meters_as_configured_partial {s s' : St} (hs : s.running = false) (hc : Valid s.cfg) {h : List Ev}
    (hv : ∀ new o e, .reload new o e ∈ h → Valid new)
    (hkeep : ∀ h1 new o e h2, h = h1 ++ .reload new o e :: h2 → Last h2 → ∀ x ∈ (cfgAfter s.cfg h1).meters, x ∈ new.meters)
    (hask : ∀ h1 e h2, h = h1 ++ .connect e :: h2 → Last h2 →
      (cfgAfter s.cfg h1).defined = true ∨ (cfgAfter s.cfg h1).packetin ≠ 0 ∨ (cfgAfter s.cfg h1).slowpath ≠ 0)
    (hr : run s h = some s') (hrun : s'.running = true) (id rate : Nat) :
    s'.sw.meters id = some rate ↔ Asks (cfgAfter s.cfg h) id rate := by
  suffices hmain : ∀ (n : Nat) (h : List Ev) (s' : St), h.length = n →
      (∀ new o e, .reload new o e ∈ h → Valid new) →
      (∀ h1 new o e h2, h = h1 ++ .reload new o e :: h2 → Last h2 → ∀ x ∈ (cfgAfter s.cfg h1).meters, x ∈ new.meters) →
      (∀ h1 e h2, h = h1 ++ .connect e :: h2 → Last h2 →
        (cfgAfter s.cfg h1).defined = true ∨ (cfgAfter s.cfg h1).packetin ≠ 0 ∨ (cfgAfter s.cfg h1).slowpath ≠ 0) →
      run s h = some s' → s'.running = true → ∀ id rate, s'.sw.meters id = some rate ↔ Asks (cfgAfter s.cfg h) id rate from
    hmain _ h s' rfl hv hkeep hask hr hrun id rate
  intro n
  induction n with
  | zero =>
    intro h s' hl _ _ _ hr hrun
    rw [List.length_eq_zero_iff] at hl
    subst hl
    cases hr
    rw [hs] at hrun
    cases hrun
  | succ n ih =>
    intro h s' hl hv hkeep hask hr hrun
    rcases List.eq_nil_or_concat h with h0 | ⟨g, ev, h0⟩
    · subst h0; simp at hl
    · rw [List.concat_eq_append] at h0
      subst h0
      have hlg : g.length = n := by simpa using hl
      rw [run_snoc] at hr
      obtain ⟨s1, hr1, hst⟩ := Option.bind_eq_some_iff.1 hr
      have hcfg := run_cfg hr1
      have hvg : ∀ new o e, Ev.reload new o e ∈ g → Valid new := fun new o e hm => hv new o e (List.mem_append_left _ hm)
      have hv1 : Valid (cfgAfter s.cfg g) := cfg_valid hc hvg
      -- the conditions hold before, unless the last event is a connection
      have back (hne : ∀ e, ev ≠ .connect e) (hrun1 : s1.running = true) :
          ∀ id rate, s1.sw.meters id = some rate ↔ Asks (cfgAfter s.cfg g) id rate := by
        refine ih g s1 hlg hvg ?_ ?_ hr1 hrun1
        · intro h1 new o e h2 he hlast
          refine hkeep h1 new o e (h2 ++ [ev]) (by rw [he]; simp) ?_
          intro e' hm
          rcases List.mem_append.1 hm with hm | hm
          · exact hlast e' hm
          · exact hne e' (List.mem_singleton.1 hm).symm
        · intro h1 e h2 he hlast
          refine hask h1 e (h2 ++ [ev]) (by rw [he]; simp) ?_
          intro e' hm
          rcases List.mem_append.1 hm with hm | hm
          · exact hlast e' hm
          · exact hne e' (List.mem_singleton.1 hm).symm
      rw [cfgAfter_snoc]
      cases ev with
      | connect e =>
        obtain ⟨sw, h1, h2⟩ := Option.map_eq_some_iff.1 hst
        subst h2
        rw [hcfg] at h1
        intro id rate
        exact cold_meters hv1 (hask g e [] (by simp) (fun e' hm => by cases hm)) h1 id rate
      | disconnect => cases hst; cases hrun
      | restart => cases hst; cases hrun
      | msgs e =>
        simp only [step] at hst
        split at hst
        · rename_i hrun1
          obtain ⟨sw, h1, h2⟩ := Option.map_eq_some_iff.1 hst
          subst h2
          intro id rate
          have := send_meters h1 id
          simp only [List.any_nil, Bool.false_eq_true, if_false, List.findSome?_nil, Option.or_none] at this
          simp only [this]
          exact back (fun e' h => by cases h) hrun1 id rate
        · cases hst
          exact back (fun e' h => by cases h) hrun
      | reload new o e =>
        simp only [step] at hst
        split at hst
        · cases hst; cases hrun
        · rename_i hcold
          split at hst
          · rename_i hrun1
            obtain ⟨sw, h1, h2⟩ := Option.map_eq_some_iff.1 hst
            subst h2
            rw [hcfg] at h1 hcold
            have hcold' : (cfgAfter s.cfg g).packetin = new.packetin ∧ (cfgAfter s.cfg g).slowpath = new.slowpath := by
              simp only [isCold, Bool.or_eq_true, not_or, bne_iff_ne, ne_eq, not_not] at hcold
              exact ⟨hcold.1.2, hcold.2⟩
            exact warm_keeps hv1 (hv new o e (by simp)) (hkeep g new o e [] (by simp) (fun e' hm => by cases hm)) hcold'.1 hcold'.2
              (back (fun e' h => by cases h) hrun1) h1
          · rename_i hrun1
            cases hst
            exact absurd hrun hrun1

/-- C78, what happens otherwise: after a reload that removes or changes any meter, without a cold start, the only meters on the switch
are those the reload added or changed. -/
theorem reload_drops_others {s s' : St} {new : Cfg} {e : Extra} (ho : Valid s.cfg) (hn : Valid new) (hrun : s.running = true)
    (hgone : ∃ x ∈ s.cfg.meters, x ∉ new.meters) (hs : step s (.reload new false e) = some s') (hrun' : s'.running = true)
    (id rate : Nat) :
    s'.sw.meters id = some rate ↔ ∃ n m, (n, m) ∈ new.meters ∧ (n, m) ∉ s.cfg.meters ∧ m.mid = id ∧ m.rate = rate := by
  simp only [step] at hs
  split at hs
  · cases hs; cases hrun'
  · obtain ⟨sw, h1, h2⟩ := Option.map_eq_some_iff.1 hs
    subst h2
    simp only
    rw [send_meters h1]
    obtain ⟨⟨n, m⟩, hx, hx'⟩ := hgone
    have hmem := (mem_olds (old := s.cfg) hn).2 ⟨hx, hx'⟩
    have hh : (warmMsgs s.cfg new).any (hitsMeter id) = true := by
      unfold warmMsgs
      rw [List.any_append, Bool.or_eq_true]
      exact Or.inl (List.any_eq_true.2 ⟨_, List.mem_map.2 ⟨_, hmem, rfl⟩, rfl⟩)
    rw [hh]
    simp only [if_true, Option.none_or]
    unfold warmMsgs
    rw [List.findSome?_append, dels_adds, Option.none_or, adds_map _ _ _ (news_ids hn)]
    constructor
    · rintro ⟨n, m, hm, h⟩
      exact ⟨n, m, ((mem_news ho).1 hm).1, ((mem_news ho).1 hm).2, h⟩
    · rintro ⟨n, m, h1, h2, h⟩
      exact ⟨n, m, (mem_news ho).2 ⟨h1, h2⟩, h⟩

end Faucet.Meters
