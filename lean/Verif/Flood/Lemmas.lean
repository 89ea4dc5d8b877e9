import Mathlib.Data.List.Nodup
import Verif.Flood.Spec
import Verif.Actions.Props
import Mathlib.Tactic.ByContra

/-! # Flooding: lemmas -/

namespace Faucet.Flood
open Faucet.OF Faucet.Actions

/-! ## Members and numbers -/

theorem WF.eq_of_number {v : FVlan} (h : WF v) {p q : FPort} (hp : p ∈ v.ports) (hq : q ∈ v.ports)
    (hn : p.number = q.number) : p = q :=
  List.inj_on_of_nodup_map h.nodup hp hq hn

theorem hasPort_iff {v : FVlan} (h : WF v) {l : List FPort} (hl : ∀ x ∈ l, x ∈ v.ports) {q : FPort} (hq : q ∈ v.ports) :
    hasPort l q = true ↔ q ∈ l := by
  unfold hasPort
  rw [List.any_eq_true]
  constructor
  · rintro ⟨x, hx, hn⟩
    have := h.eq_of_number (hl x hx) hq (by simpa using hn)
    exact this ▸ hx
  · intro hx; exact ⟨q, hx, by simp⟩

/-! ## The LAG exclusion -/

theorem mem_removeFirst {v : FVlan} (h : WF v) {l : List FPort} (hl : ∀ x ∈ l, x ∈ v.ports) (hn : (l.map FPort.number).Nodup)
    {s : FPort} (hs : s ∈ v.ports) (q : FPort) : q ∈ removeFirst l s ↔ q ∈ l ∧ q ≠ s := by
  induction l with
  | nil => simp [removeFirst]
  | cons a l ih =>
    have hnn := List.nodup_cons.1 hn
    have ih := ih (fun x hx => hl x (List.mem_cons_of_mem _ hx)) hnn.2
    unfold removeFirst
    split
    · rename_i heq
      have has : a = s := h.eq_of_number (hl a (by simp)) hs heq
      subst has
      constructor
      · intro hq
        refine ⟨List.mem_cons_of_mem _ hq, ?_⟩
        rintro rfl
        exact hnn.1 (List.mem_map.2 ⟨q, hq, rfl⟩)
      · rintro ⟨hq, hne⟩
        rcases List.mem_cons.1 hq with rfl | hq
        · exact absurd rfl hne
        · exact hq
    · rename_i hne
      rw [List.mem_cons, ih, List.mem_cons]
      constructor
      · rintro (rfl | ⟨h1, h2⟩)
        · exact ⟨Or.inl rfl, fun he => hne (he ▸ rfl)⟩
        · exact ⟨Or.inr h1, h2⟩
      · rintro ⟨rfl | h1, h2⟩
        · exact Or.inl rfl
        · exact Or.inr ⟨h1, h2⟩

theorem mem_lag {v : FVlan} {n : Nat} {q : FPort} : q ∈ v.lag n ↔ q ∈ v.ports ∧ q.lacp ≠ 0 ∧ q.lacp = n := by
  unfold FVlan.lag FVlan.lacpPorts
  simp only [List.mem_filter, bne_iff_ne, ne_eq, beq_iff_eq, and_assoc]

theorem lag_nodup {v : FVlan} (h : WF v) (n : Nat) : ((v.lag n).map FPort.number).Nodup :=
  h.nodup.sublist ((List.filter_sublist.trans List.filter_sublist).map _)

theorem selectedLag_eq {v : FVlan} {n : Nat} :
    v.selectedLag n = v.ports.filter (fun p => p.lacp != 0 && p.lacp == n && (p.selected && p.actorUp)) := by
  unfold FVlan.selectedLag FVlan.lacpUpSelected FVlan.lacpPorts
  rw [List.filter_filter, List.filter_filter]
  congr 1; funext p
  cases p.lacp != 0 <;> cases p.lacp == n <;> simp

theorem filter_head_split {α : Type} {f : α → Bool} {l : List α} {s : α} {r : List α} (h : l.filter f = s :: r) :
    ∃ pre post, l = pre ++ s :: post ∧ f s = true ∧ ∀ x ∈ pre, f x = false := by
  induction l with
  | nil => simp at h
  | cons a l ih =>
    rw [List.filter_cons] at h
    split at h
    · rename_i ha
      obtain ⟨rfl, -⟩ := List.cons.inj h
      exact ⟨[], l, rfl, ha, by simp⟩
    · rename_i ha
      obtain ⟨pre, post, rfl, h1, h2⟩ := ih h
      refine ⟨a :: pre, post, rfl, h1, ?_⟩
      intro x hx
      rcases List.mem_cons.1 hx with rfl | hx
      · simpa using ha
      · exact h2 x hx

/-- The head of the selected members of a bundle is the chosen one. -/
theorem chosen_iff {v : FVlan} {q : FPort} (hl : q.lacp ≠ 0) :
    Chosen v q ↔ ∃ r, v.selectedLag q.lacp = q :: r := by
  rw [selectedLag_eq]
  constructor
  · rintro ⟨pre, post, he, hs, hu, hpre⟩
    rw [he, List.filter_append]
    have : pre.filter (fun p => p.lacp != 0 && p.lacp == q.lacp && (p.selected && p.actorUp)) = [] := by
      rw [List.filter_eq_nil_iff]
      intro x hx hc
      simp only [Bool.and_eq_true, beq_iff_eq, bne_iff_ne, ne_eq] at hc
      exact hpre x hx hc.1.2 hc.2
    rw [this, List.nil_append, List.filter_cons, if_pos (by simp [hl, hs, hu])]
    exact ⟨_, rfl⟩
  · rintro ⟨r, hr⟩
    obtain ⟨pre, post, he, hf, hpre⟩ := filter_head_split hr
    simp only [Bool.and_eq_true] at hf
    refine ⟨pre, post, he, hf.2.1, hf.2.2, ?_⟩
    intro x hx hxl hc
    have := hpre x hx
    simp only [Bool.and_eq_false_iff, bne_eq_false_iff_eq, beq_eq_false_iff_ne, ne_eq] at this
    rcases this with (h1 | h1) | h1
    · exact hl (hxl ▸ h1)
    · exact h1 hxl
    · rcases h1 with h1 | h1
      · rw [hc.1] at h1; simp at h1
      · rw [hc.2] at h1; simp at h1

theorem mem_lagRest {v : FVlan} (h : WF v) {n : Nat} {q : FPort} (hq : q ∈ v.ports) :
    q ∈ v.lagRest n ↔ q.lacp ≠ 0 ∧ q.lacp = n ∧ ¬ Chosen v q := by
  unfold FVlan.lagRest
  cases hs : v.selectedLag n with
  | nil =>
    show q ∈ v.lag n ↔ _
    rw [mem_lag]
    constructor
    · rintro ⟨-, h1, h2⟩
      refine ⟨h1, h2, ?_⟩
      rw [chosen_iff h1, h2, hs]
      rintro ⟨r, hr⟩; cases hr
    · rintro ⟨h1, h2, -⟩; exact ⟨hq, h1, h2⟩
  | cons s r =>
    have hsm : s ∈ v.ports := by
      have : s ∈ v.selectedLag n := by rw [hs]; simp
      rw [selectedLag_eq] at this
      exact (List.mem_filter.1 this).1
    show q ∈ removeFirst (v.lag n) s ↔ _
    rw [mem_removeFirst h (fun x hx => (mem_lag.1 hx).1) (lag_nodup h n) hsm, mem_lag]
    constructor
    · rintro ⟨⟨-, h1, h2⟩, hne⟩
      refine ⟨h1, h2, ?_⟩
      rw [chosen_iff h1, h2, hs]
      rintro ⟨r', hr'⟩
      exact hne (List.cons.inj hr').1.symm
    · rintro ⟨h1, h2, hc⟩
      refine ⟨⟨hq, h1, h2⟩, ?_⟩
      rintro rfl
      exact hc ((chosen_iff h1).2 ⟨r, by rw [h2]; exact hs⟩)

theorem lagRest_sub {v : FVlan} {n : Nat} {q : FPort} (hq : q ∈ v.lagRest n) : q ∈ v.ports := by
  have hsub : ∀ (l : List FPort) (s : FPort), ∀ x ∈ removeFirst l s, x ∈ l := by
    intro l s
    induction l with
    | nil => simp [removeFirst]
    | cons a l ih =>
      intro x hx
      unfold removeFirst at hx
      split at hx
      · exact List.mem_cons_of_mem _ hx
      · rcases List.mem_cons.1 hx with rfl | hx
        · simp
        · exact List.mem_cons_of_mem _ (ih x hx)
  unfold FVlan.lagRest at hq
  split at hq
  · exact (mem_lag.1 hq).1
  · exact (mem_lag.1 (hsub _ _ _ hq)).1

theorem mem_sameLag {v : FVlan} {inPort : Option FPort} {q : FPort} :
    q ∈ v.sameLag inPort ↔ q ∈ v.ports ∧ q.lacp ≠ 0 ∧ ∃ p, inPort = some p ∧ p.lacp = q.lacp := by
  unfold FVlan.sameLag
  cases inPort with
  | none => simp
  | some p =>
    simp only
    split
    · rename_i hp
      constructor
      · intro h; simp at h
      · rintro ⟨-, h1, p', hp', h2⟩
        obtain rfl := Option.some.inj hp'
        exact absurd (h2 ▸ hp) h1
    · rw [mem_lag]
      constructor
      · rintro ⟨h1, h2, h3⟩; exact ⟨h1, h2, p, rfl, h3.symm⟩
      · rintro ⟨h1, h2, p', hp', h3⟩
        obtain rfl := Option.some.inj hp'
        exact ⟨h1, h2, h3.symm⟩

theorem mem_excludedLag {v : FVlan} (h : WF v) {inPort : Option FPort} {q : FPort} (hq : q ∈ v.ports) :
    q ∈ v.excludedLag inPort ↔ q.lacp ≠ 0 ∧ ((∃ p, inPort = some p ∧ p.lacp = q.lacp) ∨ ¬ Chosen v q) := by
  unfold FVlan.excludedLag
  rw [List.mem_append, mem_sameLag, List.mem_flatMap]
  constructor
  · rintro (⟨-, h1, h2⟩ | ⟨n, -, h1⟩)
    · exact ⟨h1, Or.inl h2⟩
    · obtain ⟨h2, -, h3⟩ := (mem_lagRest h hq).1 h1
      exact ⟨h2, Or.inr h3⟩
  · rintro ⟨h1, h2 | h2⟩
    · exact Or.inl ⟨hq, h1, h2⟩
    · refine Or.inr ⟨q.lacp, ?_, (mem_lagRest h hq).2 ⟨h1, rfl, h2⟩⟩
      unfold FVlan.lagIds
      rw [mem_mkSet]
      exact List.mem_map.2 ⟨q, by unfold FVlan.lacpPorts; simp [hq, h1], rfl⟩

/-! ## External ports -/

theorem mem_externalsUp {v : FVlan} {q : FPort} : q ∈ v.externalsUp ↔ q ∈ v.ports ∧ q.external = true ∧ q.physUp = true := by
  unfold FVlan.externalsUp FVlan.externals
  simp only [List.mem_filter, and_assoc]

theorem canonical_sorted (l : List FPort) : (canonical l).Pairwise (fun a b => a.number ≤ b.number) := by
  have := isort_pairwise (le := fun a b : FPort => decide (a.number ≤ b.number)) (fun a b => by simp; omega)
    (fun a b c h1 h2 => by simp at *; omega) l
  exact this.imp (by simp)

theorem mem_canonical {l : List FPort} {q : FPort} : q ∈ canonical l ↔ q ∈ l := mem_isort

theorem mem_canonical_tail {v : FVlan} (h : WF v) {q : FPort} (hq : q ∈ v.ports) :
    q ∈ (canonical v.externalsUp).tail ↔ q.external = true ∧ q.physUp = true ∧ ¬ FirstExternal v q := by
  have hnod : ((canonical v.externalsUp).map FPort.number).Nodup := by
    have hp : ((canonical v.externalsUp).map FPort.number).Perm (v.externalsUp.map FPort.number) := (isort_perm _ _).map _
    refine hp.nodup_iff.2 (h.nodup.sublist ?_)
    exact (List.filter_sublist.trans List.filter_sublist).map _
  have hs := canonical_sorted v.externalsUp
  have hm : ∀ x, x ∈ canonical v.externalsUp ↔ x ∈ v.ports ∧ x.external = true ∧ x.physUp = true := by
    intro x; rw [mem_canonical, mem_externalsUp]
  cases hc : canonical v.externalsUp with
  | nil =>
    rw [hc] at hm
    simp only [List.tail_nil, List.not_mem_nil, false_iff]
    rintro ⟨h1, h2, -⟩
    exact absurd ((hm q).2 ⟨hq, h1, h2⟩) (by simp)
  | cons a l =>
    rw [hc] at hm hs hnod
    simp only [List.tail_cons]
    have ha := (hm a).1 (by simp)
    have hs' := List.pairwise_cons.1 hs
    have hn' := List.nodup_cons.1 hnod
    constructor
    · intro hql
      obtain ⟨-, h1, h2⟩ := (hm q).1 (List.mem_cons_of_mem _ hql)
      refine ⟨h1, h2, fun hf => ?_⟩
      have h3 := hf a ha.1 ha.2.1 ha.2.2
      have h4 := hs'.1 q hql
      have : a.number = q.number := by omega
      exact hn'.1 (this ▸ List.mem_map.2 ⟨q, hql, rfl⟩)
    · rintro ⟨h1, h2, h3⟩
      rcases List.mem_cons.1 ((hm q).2 ⟨hq, h1, h2⟩) with rfl | hql
      · exfalso; apply h3
        intro r hr hre hru
        rcases List.mem_cons.1 ((hm r).2 ⟨hr, hre, hru⟩) with rfl | hrl
        · exact Nat.le_refl _
        · exact hs'.1 r hrl
      · exact hql

theorem mem_excludedExternal {v : FVlan} (h : WF v) {inPort : Option FPort} {ae : Bool} {q : FPort} (hq : q ∈ v.ports) :
    q ∈ v.excludedExternal inPort ae ↔ q.external = true ∧ q.physUp = true ∧
      ¬ (ae = false ∧ (∀ p, inPort = some p → p.external = false) ∧ FirstExternal v q) := by
  unfold FVlan.excludedExternal
  split
  · rename_i hc
    rw [mem_canonical, mem_externalsUp]
    simp only [Bool.or_eq_true] at hc
    constructor
    · rintro ⟨-, h1, h2⟩
      refine ⟨h1, h2, ?_⟩
      rintro ⟨h3, h4, -⟩
      rcases hc with hc | hc
      · rw [h3] at hc; simp at hc
      · cases inPort with
        | none => simp [inExternal] at hc
        | some p => have := h4 p rfl; simp [inExternal, this] at hc
    · rintro ⟨h1, h2, -⟩; exact ⟨hq, h1, h2⟩
  · rename_i hc
    rw [mem_canonical_tail h hq]
    simp only [Bool.or_eq_true, not_or, Bool.not_eq_true] at hc
    have h4 : ∀ p, inPort = some p → p.external = false := by
      intro p hp; subst hp; exact hc.2
    constructor
    · rintro ⟨h1, h2, h3⟩; exact ⟨h1, h2, fun hh => h3 hh.2.2⟩
    · rintro ⟨h1, h2, h3⟩; exact ⟨h1, h2, fun hf => h3 ⟨hc.1, h4, hf⟩⟩

/-! ## Eligibility is what is not excluded -/

theorem excluded_sub {v : FVlan} {inPort : Option FPort} {ae er : Bool} {q : FPort}
    (hq : q ∈ v.excluded inPort ae er) : q ∈ v.ports := by
  unfold FVlan.excluded at hq
  simp only [List.mem_append] at hq
  rcases hq with ((hq | hq) | hq) | hq
  · unfold FVlan.excludedLag at hq
    rcases List.mem_append.1 hq with hq | hq
    · exact (mem_sameLag.1 hq).1
    · obtain ⟨n, -, hq⟩ := List.mem_flatMap.1 hq
      exact lagRest_sub hq
  · unfold FVlan.excludeNative at hq
    have := (List.mem_filter.1 hq).1
    unfold FVlan.ports; simp [this]
  · unfold FVlan.excludedExternal at hq
    have : q ∈ v.externalsUp := by
      split at hq
      · exact mem_canonical.1 hq
      · exact mem_canonical.1 (List.mem_of_mem_tail hq)
    exact (mem_externalsUp.1 this).1
  · split at hq
    · exact (List.mem_filter.1 hq).1
    · simp at hq

theorem not_excluded_iff {v : FVlan} (h : WF v) {inPort : Option FPort} {ae er : Bool} {q : FPort} (hq : q ∈ v.ports) :
    hasPort (v.excluded inPort ae er) q = false ↔ Eligible v inPort ae er q := by
  rw [← Bool.not_eq_true, hasPort_iff h (fun x hx => excluded_sub hx) hq]
  unfold FVlan.excluded
  simp only [List.mem_append, not_or]
  rw [mem_excludedLag h hq, mem_excludedExternal h hq]
  constructor
  · rintro ⟨⟨⟨h1, h2⟩, h3⟩, h4⟩
    refine ⟨?_, ?_, ?_, ?_⟩
    · intro hl
      refine ⟨?_, ?_⟩
      · by_contra hc; exact h1 ⟨hl, Or.inr hc⟩
      · intro p hp hpl; exact h1 ⟨hl, Or.inl ⟨p, hp, hpl⟩⟩
    · intro hu
      unfold FVlan.excludeNative at h2
      rw [List.mem_filter] at h2
      cases hd : q.dot1xVid with
      | none => exact Or.inl rfl
      | some d =>
        right
        by_contra hc
        exact h2 ⟨hu, by simp only [hd]; simpa using fun he => hc (by rw [he])⟩
    · intro he hu
      by_contra hc; exact h3 ⟨he, hu, hc⟩
    · intro her
      rw [if_pos her, List.mem_filter] at h4
      cases hr : q.restricted with
      | false => rfl
      | true => exact absurd ⟨hq, hr⟩ h4
  · rintro ⟨hl, hn, he, hr⟩
    refine ⟨⟨⟨?_, ?_⟩, ?_⟩, ?_⟩
    · rintro ⟨h1, ⟨p, hp, hpl⟩ | h2⟩
      · exact (hl h1).2 p hp hpl
      · exact h2 (hl h1).1
    · unfold FVlan.excludeNative
      rw [List.mem_filter]
      rintro ⟨hu, hd⟩
      rcases hn hu with h0 | h0
      · rw [h0] at hd; simp at hd
      · rw [h0] at hd; simp at hd
    · rintro ⟨h1, h2, h3⟩; exact h3 (he h1 h2)
    · cases er with
      | false => simp
      | true =>
        rw [if_pos rfl, List.mem_filter]
        rintro ⟨-, hc⟩
        rw [hr rfl] at hc; simp at hc

/-! ## Shape of the flood actions -/

theorem floodTagged_shape (ports : List FPort) (inPort : Option FPort) (excl : List FPort) :
    ∃ ns : List Nat, floodTagged ports inPort excl = ns.map Action.output ∧ ns.Nodup ∧
      ∀ n, n ∈ ns ↔ ∃ q ∈ ports, .output n ∈ portOutputs inPort excl q := by
  obtain ⟨ns, h1, h2, -, h3⟩ := dedupe_exact (ports.flatMap (portOutputs inPort excl))
  exact ⟨ns, h1, h2, fun n => by rw [h3, List.mem_flatMap]⟩

/-- Flood actions: maybe set the priority bits, output to `T`, remove the tag, output to `U`. -/
structure Shape (acts : List Action) (pre : List Action) (T U : List Nat) : Prop where
  eq : acts = pre ++ T.map Action.output ++ (if U = [] then [] else .popVlan :: U.map Action.output)
  pre : pre = [] ∨ pre = [.setField fVlanPcp pcpExt]
  nodupT : T.Nodup
  nodupU : U.Nodup

theorem ruleActs_shape (v : FVlan) (eu : Bool) (inPort : Option FPort) (ae er : Bool) :
    ∃ pre T U, Shape (v.ruleActs eu inPort ae er) pre T U ∧
      (∀ n, n ∈ T ↔ ∃ q ∈ v.taggedFlood eu, .output n ∈ portOutputs inPort (v.excluded inPort ae er) q) ∧
      (∀ n, n ∈ U ↔ ∃ q ∈ v.untaggedFlood eu, .output n ∈ portOutputs inPort (v.excluded inPort ae er) q) := by
  obtain ⟨T, hT, hTn, hTm⟩ := floodTagged_shape (v.taggedFlood eu) inPort (v.excluded inPort ae er)
  obtain ⟨U, hU, hUn, hUm⟩ := floodTagged_shape (v.untaggedFlood eu) inPort (v.excluded inPort ae er)
  refine ⟨if v.externals ≠ [] ∧ v.taggedFlood eu ≠ [] then [.setField fVlanPcp pcpExt] else [], T, U,
    ⟨?_, ?_, hTn, hUn⟩, hTm, hUm⟩
  · unfold FVlan.ruleActs FVlan.localActs floodOutputs floodUntagged
    rw [hT, hU]
    simp only [List.map_eq_nil_iff, List.append_assoc]
  · split
    · exact Or.inr rfl
    · exact Or.inl rfl

/-- A member's number among the outputs: it is a flood member, not the ingress port, and not excluded. -/
theorem member_output {v : FVlan} (h : WF v) {inPort : Option FPort}
    {excl : List FPort} {ports : List FPort} (hp : ∀ x ∈ ports, x ∈ v.ports) {q : FPort} (hq : q ∈ v.ports) :
    (∃ r ∈ ports, .output q.number ∈ portOutputs inPort excl r) ↔
      q ∈ ports ∧ isIn inPort q = false ∧ hasPort excl q = false := by
  constructor
  · rintro ⟨r, hr, ho⟩
    unfold portOutputs at ho
    split at ho
    · split at ho
      · simp only [List.mem_cons, Action.output.injEq, List.not_mem_nil, or_false] at ho
        exact absurd ho (h.notInPort q hq)
      · simp at ho
    · rename_i hi
      split at ho
      · simp at ho
      · rename_i he
        rcases List.mem_cons.1 ho with ho | ho
        · have : q = r := h.eq_of_number hq (hp r hr) (by simpa using ho)
          subst this
          exact ⟨hr, by simpa using hi, by simpa using he⟩
        · split at ho
          · obtain ⟨m, hm, hmo⟩ := List.mem_map.1 ho
            have : m = q.number := by simpa using hmo
            exact absurd this.symm ((h.mirrors r (hp r hr) m hm).2 q hq)
          · simp at ho
  · rintro ⟨h1, h2, h3⟩
    refine ⟨q, h1, ?_⟩
    unfold portOutputs
    rw [if_neg (by simp [h2]), if_neg (by simp [h3])]
    simp

/-- `OFPP_IN_PORT` among the outputs: the ingress port is a flood member and a hairpin port. -/
theorem inPort_output {v : FVlan} (h : WF v) {p : FPort} (hpm : p ∈ v.ports)
    {excl : List FPort} {ports : List FPort} (hp : ∀ x ∈ ports, x ∈ v.ports) :
    (∃ r ∈ ports, .output portInPort ∈ portOutputs (some p) excl r) ↔ p ∈ ports ∧ p.hairpin = true := by
  constructor
  · rintro ⟨r, hr, ho⟩
    unfold portOutputs at ho
    split at ho
    · rename_i hi
      have : r = p := h.eq_of_number (hp r hr) hpm (by simpa [isIn] using hi)
      subst this
      split at ho
      · rename_i hh; exact ⟨hr, hh⟩
      · simp at ho
    · split at ho
      · simp at ho
      · rcases List.mem_cons.1 ho with ho | ho
        · have : portInPort = r.number := by simpa using ho
          exact absurd this.symm (h.notInPort r (hp r hr))
        · split at ho
          · obtain ⟨m, hm, hmo⟩ := List.mem_map.1 ho
            have : m = portInPort := by simpa using hmo
            exact absurd this (h.mirrors r (hp r hr) m hm).1
          · simp at ho
  · rintro ⟨h1, h2⟩
    refine ⟨p, h1, ?_⟩
    unfold portOutputs
    rw [if_pos (by simp [isIn]), if_pos h2]
    simp

theorem taggedFlood_sub {v : FVlan} {eu : Bool} {q : FPort} : q ∈ v.taggedFlood eu ↔ q ∈ v.tagged ∧ (eu = true → q.unicastFlood = true) := by
  unfold FVlan.taggedFlood floodPorts
  cases eu <;> simp

theorem untaggedFlood_sub {v : FVlan} {eu : Bool} {q : FPort} :
    q ∈ v.untaggedFlood eu ↔ q ∈ v.untagged ++ v.dot1xUntagged ∧ (eu = true → q.unicastFlood = true) := by
  unfold FVlan.untaggedFlood floodPorts
  cases eu
  · simp
  · rw [if_pos rfl, List.mem_filter]; simp

theorem mem_ports {v : FVlan} {q : FPort} : q ∈ v.ports ↔ q ∈ v.tagged ∨ q ∈ v.untagged ++ v.dot1xUntagged := by
  unfold FVlan.ports
  simp only [List.mem_append, or_assoc]

theorem WF.disjoint {v : FVlan} (h : WF v) {q : FPort} (h1 : q ∈ v.tagged) (h2 : q ∈ v.untagged ++ v.dot1xUntagged) : False := by
  have := h.nodup
  unfold FVlan.ports at this
  rw [List.append_assoc, List.map_append, List.nodup_append] at this
  exact this.2.2 q.number (List.mem_map.2 ⟨q, h1, rfl⟩) q.number (List.mem_map.2 ⟨q, h2, rfl⟩) rfl

/-! ## What the actions emit -/

/-- The packet after the optional priority bits. -/
def prePkt (pre : List Action) (k : Pkt) : Pkt := after Action.apply pre k

theorem copiesTo_append (n : Nat) (a b : List Emit) : copiesTo n (a ++ b) = copiesTo n a ++ copiesTo n b := by
  simp [copiesTo]

theorem copiesTo_emitPort {k : Pkt} {i n : Nat} (hk : k.hdr fInPort = some i) (hi : i ≠ portInPort) (hn : n ≠ i) (m : Nat) :
    copiesTo n (emitPort k m) = if m = n ∧ m ≠ portInPort then [⟨n, k.tags, k.hdr⟩] else [] := by
  unfold emitPort copiesTo
  by_cases h1 : m = portInPort
  · rw [if_pos h1, hk, if_neg (by simp [h1])]
    simp [Ne.symm hn]
  · rw [if_neg h1]
    by_cases h2 : m = i
    · subst h2
      rw [if_pos hk, if_neg (by simp [Ne.symm hn])]; rfl
    · rw [if_neg (by rw [hk]; simpa using Ne.symm h2)]
      by_cases h3 : m = n
      · subst h3; simp [h1]
      · simp [h3]

theorem copiesTo_outputs {k : Pkt} {i n : Nat} (hk : k.hdr fInPort = some i) (hi : i ≠ portInPort) (hn : n ≠ i)
    (hnp : n ≠ portInPort) {ns : List Nat} (hnd : ns.Nodup) :
    copiesTo n (ns.flatMap (emitPort k)) = if n ∈ ns then [⟨n, k.tags, k.hdr⟩] else [] := by
  induction ns with
  | nil => simp [copiesTo]
  | cons m ns ih =>
    obtain ⟨h1, h2⟩ := List.nodup_cons.1 hnd
    rw [List.flatMap_cons, copiesTo_append, ih h2, copiesTo_emitPort hk hi hn]
    by_cases hm : m = n
    · subst hm
      simp [hnp, h1]
    · simp [hm, Ne.symm hm]

theorem copiesTo_ingress {k : Pkt} {i : Nat} (hk : k.hdr fInPort = some i) (hi : i ≠ portInPort) {ns : List Nat}
    (hnd : ns.Nodup) :
    copiesTo i (ns.flatMap (emitPort k)) = if portInPort ∈ ns then [⟨i, k.tags, k.hdr⟩] else [] := by
  induction ns with
  | nil => simp [copiesTo]
  | cons m ns ih =>
    obtain ⟨h1, h2⟩ := List.nodup_cons.1 hnd
    rw [List.flatMap_cons, copiesTo_append, ih h2]
    by_cases hm : m = portInPort
    · subst hm
      simp [emitPort, copiesTo, hk, h1]
    · have : copiesTo i (emitPort k m) = [] := by
        unfold emitPort copiesTo
        rw [if_neg hm]
        by_cases hmi : m = i
        · subst hmi; rw [if_pos hk]; rfl
        · rw [if_neg (by rw [hk]; simpa using Ne.symm hmi)]; simp [hmi]
      rw [this]
      simp [Ne.symm hm]

/-- Emissions of flood actions. -/
theorem emits_shape {acts pre : List Action} {T U : List Nat} (hs : Shape acts pre T U)
    (g : Nat → Option (List (List Action))) (k : Pkt) :
    (runActs g acts k).1 = T.flatMap (emitPort (prePkt pre k)) ++ U.flatMap (emitPort (Action.popVlan.apply (prePkt pre k))) := by
  have hpre : runActs g pre k = ([], prePkt pre k) := by
    rcases hs.pre with rfl | rfl
    · rfl
    · rfl
  rw [hs.eq, List.append_assoc, runActs_append, hpre, runActs_append, runActs_outputs]
  simp only [List.nil_append]
  congr 1
  split
  · rename_i h; subst h; rfl
  · simp only [runActs]
    rw [runActs_outputs]

theorem prePkt_hdr {acts pre : List Action} {T U : List Nat} (hs : Shape acts pre T U) (k : Pkt) :
    (prePkt pre k).hdr = k.hdr ∧ (prePkt pre k).tags.map Prod.fst = k.tags.map Prod.fst ∧
      (prePkt pre k).tags.tail = k.tags.tail := by
  rcases hs.pre with rfl | rfl
  · exact ⟨rfl, rfl, rfl⟩
  · refine ⟨rfl, ?_, ?_⟩
    · cases h : k.tags with
      | nil => simp [prePkt, after, Action.apply, fVlanPcp, fVlanVid, h]
      | cons t r => simp [prePkt, after, Action.apply, fVlanPcp, fVlanVid, h]
    · cases h : k.tags with
      | nil => simp [prePkt, after, Action.apply, fVlanPcp, fVlanVid, h]
      | cons t r => simp [prePkt, after, Action.apply, fVlanPcp, fVlanVid, h]

/-- Copies to one port, from the raw flood actions. -/
theorem copies_raw {acts pre : List Action} {T U : List Nat} (hs : Shape acts pre T U)
    (g : Nat → Option (List (List Action))) {k : Pkt} {i n : Nat} (hk : k.hdr fInPort = some i) (hi : i ≠ portInPort)
    (hn : n ≠ i) (hnp : n ≠ portInPort) :
    copiesTo n (runActs g acts k).1 =
      (if n ∈ T then [⟨n, (prePkt pre k).tags, k.hdr⟩] else []) ++ (if n ∈ U then [⟨n, k.tags.tail, k.hdr⟩] else []) := by
  obtain ⟨h1, h2, h3⟩ := prePkt_hdr hs k
  rw [emits_shape hs, copiesTo_append, copiesTo_outputs (by rw [h1]; exact hk) hi hn hnp hs.nodupT,
    copiesTo_outputs (by show (prePkt pre k).hdr fInPort = some i; rw [h1]; exact hk) hi hn hnp hs.nodupU]
  show (if n ∈ T then [(⟨n, (prePkt pre k).tags, (prePkt pre k).hdr⟩ : Emit)] else []) ++
    (if n ∈ U then [(⟨n, (prePkt pre k).tags.tail, (prePkt pre k).hdr⟩ : Emit)] else []) = _
  rw [h1, h3]

/-- Copies back to the ingress port, from the raw flood actions. -/
theorem copies_raw_ingress {acts pre : List Action} {T U : List Nat} (hs : Shape acts pre T U)
    (g : Nat → Option (List (List Action))) {k : Pkt} {i : Nat} (hk : k.hdr fInPort = some i) (hi : i ≠ portInPort) :
    copiesTo i (runActs g acts k).1 =
      (if portInPort ∈ T then [⟨i, (prePkt pre k).tags, k.hdr⟩] else []) ++
      (if portInPort ∈ U then [⟨i, k.tags.tail, k.hdr⟩] else []) := by
  obtain ⟨h1, h2, h3⟩ := prePkt_hdr hs k
  rw [emits_shape hs, copiesTo_append, copiesTo_ingress (by rw [h1]; exact hk) hi hs.nodupT,
    copiesTo_ingress (by show (prePkt pre k).hdr fInPort = some i; rw [h1]; exact hk) hi hs.nodupU]
  show (if portInPort ∈ T then [(⟨i, (prePkt pre k).tags, (prePkt pre k).hdr⟩ : Emit)] else []) ++
    (if portInPort ∈ U then [(⟨i, (prePkt pre k).tags.tail, (prePkt pre k).hdr⟩ : Emit)] else []) = _
  rw [h1, h3]

/-! ## The cleaned-up list -/

theorem fold_outputs_fresh (ns : List Nat) (d : Dedup) (hn : ns.Nodup) (hd : ∀ n ∈ ns, n ∉ d.ports) :
    (ns.map Action.output).foldl dedupStep d =
      { acts := d.acts ++ ns.map Action.output, ports := d.ports ++ ns, nonOut := d.nonOut } := by
  induction ns generalizing d with
  | nil => simp
  | cons n ns ih =>
    obtain ⟨h1, h2⟩ := List.nodup_cons.1 hn
    have hstep : dedupStep d (.output n) = { acts := d.acts ++ [.output n], ports := d.ports ++ [n], nonOut := d.nonOut } := by
      simp [dedupStep, hd n (by simp)]
    rw [List.map_cons, List.foldl_cons, hstep, ih _ h2]
    · simp
    · intro m hm
      simp only [List.mem_append, List.mem_cons, List.not_mem_nil, or_false, not_or]
      exact ⟨hd m (List.mem_cons_of_mem _ hm), fun he => h1 (he ▸ hm)⟩

theorem fold_outputs (ns : List Nat) (d : Dedup) (hn : ns.Nodup) :
    (ns.map Action.output).foldl dedupStep d =
      { acts := d.acts ++ (ns.filter (fun n => !d.ports.contains n)).map Action.output,
        ports := d.ports ++ ns.filter (fun n => !d.ports.contains n), nonOut := d.nonOut } := by
  induction ns generalizing d with
  | nil => simp
  | cons n ns ih =>
    obtain ⟨h1, h2⟩ := List.nodup_cons.1 hn
    rw [List.map_cons, List.foldl_cons]
    by_cases hm : n ∈ d.ports
    · have hstep : dedupStep d (.output n) = d := by simp [dedupStep, hm]
      rw [hstep, ih _ h2]
      simp [hm]
    · have hstep : dedupStep d (.output n) = { acts := d.acts ++ [.output n], ports := d.ports ++ [n], nonOut := d.nonOut } := by
        simp [dedupStep, hm]
      rw [hstep, ih _ h2]
      have hf : ns.filter (fun x => !(d.ports ++ [n]).contains x) = ns.filter (fun x => !d.ports.contains x) := by
        apply List.filter_congr
        intro x hx
        have : x ≠ n := fun he => h1 (he ▸ hx)
        simp [this]
      simp only [hf]
      simp [hm]

/-- Clean-up of flood actions: ports already served with the tag are not served again without it. -/
theorem cleanup_shape {acts pre : List Action} {T U : List Nat} (hs : Shape acts pre T U) :
    (outputNonOutput acts).1 = pre ++ T.map Action.output ++
      (if U = [] then [] else .popVlan :: (U.filter (fun n => !T.contains n)).map Action.output) ∧
    (outputNonOutput acts).2.1 = T ++ U.filter (fun n => !T.contains n) ∧ (outputNonOutput acts).2.2 = pre := by
  have hfold : dedupFold acts = Dedup.mk
      (pre ++ T.map Action.output ++
        (if U = [] then [] else .popVlan :: (U.filter (fun n => !T.contains n)).map Action.output))
      (T ++ U.filter (fun n => !T.contains n)) (pre ++ (if U = [] then [] else [.popVlan])) := by
    unfold dedupFold
    rw [hs.eq, List.foldl_append, List.foldl_append]
    have h0 : pre.foldl dedupStep {} = { acts := pre, ports := [], nonOut := pre } := by
      rcases hs.pre with rfl | rfl
      · rfl
      · rfl
    rw [h0, fold_outputs_fresh T _ hs.nodupT (by simp)]
    by_cases hU : U = []
    · subst hU; simp
    · rw [if_neg hU, if_neg hU, if_neg hU, List.foldl_cons]
      have hp : Action.popVlan ∉ pre := by
        rcases hs.pre with rfl | rfl <;> simp
      have hstep : dedupStep { acts := pre ++ T.map Action.output, ports := [] ++ T, nonOut := pre } .popVlan =
          { acts := pre ++ T.map Action.output ++ [.popVlan], ports := T, nonOut := pre ++ [.popVlan] } := by
        simp [dedupStep, hp]
      rw [hstep, fold_outputs U _ hs.nodupU]
      simp
  unfold outputNonOutput
  rw [hfold]
  refine ⟨rfl, rfl, ?_⟩
  show List.filter _ _ = _
  rw [List.filter_append]
  have h1 : (if U = [] then ([] : List Action) else [.popVlan]).filter (fun a => a != .popVlan) = [] := by
    split <;> simp
  have h2 : pre.filter (fun a => a != .popVlan) = pre := by
    rcases hs.pre with rfl | rfl <;> rfl
  rw [h1, h2, List.append_nil]

/-- The cleaned-up list as flood actions. When the only untagged outputs are already served the list ends with a
harmless `pop_vlan`. -/
theorem cleanup_is_shape {acts pre : List Action} {T U : List Nat} (hs : Shape acts pre T U)
    (g : Nat → Option (List (List Action))) (k : Pkt) :
    ∃ acts', Shape acts' pre T (U.filter (fun n => !T.contains n)) ∧
      (runActs g (outputNonOutput acts).1 k).1 = (runActs g acts' k).1 := by
  refine ⟨_, ⟨rfl, hs.pre, hs.nodupT, hs.nodupU.sublist List.filter_sublist⟩, ?_⟩
  rw [(cleanup_shape hs).1]
  by_cases hU : U = []
  · subst hU; simp
  · rw [if_neg hU]
    by_cases hF : U.filter (fun n => !T.contains n) = []
    · rw [if_pos hF, hF, runActs_append]
      simp [runActs]
    · rw [if_neg hF]

end Faucet.Flood
