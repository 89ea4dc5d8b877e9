import Verif.Actions.Model
import Verif.OpenFlow.Datapath

/-!
# C50: trimming keeps the outputs. C54: de-duplication keeps the ports.
-/

namespace Faucet.Actions
open Faucet.OF

/-! ## C50 -/

/-- Specification: actions with any effect on packets of any kind. `eff a p` is the packet after the action, `out a p`
what the action itself sends anywhere. -/
def run {P O : Type} (eff : Action → P → P) (out : Action → P → List O) : List Action → P → List O
  | [], _ => []
  | a :: as, p => out a p ++ run eff out as (eff a p)

/-- The packet after the actions. -/
def after {P : Type} (eff : Action → P → P) (as : List Action) (p : P) : P := as.foldl (fun p a => eff a p) p

theorem run_append {P O : Type} (eff : Action → P → P) (out : Action → P → List O) (as bs : List Action) (p : P) :
    run eff out (as ++ bs) p = run eff out as p ++ run eff out bs (after eff as p) := by
  induction as generalizing p with
  | nil => rfl
  | cons a as ih => simp [run, after, ih]

theorem run_silent {P O : Type} (eff : Action → P → P) (out : Action → P → List O) (as : List Action)
    (h : ∀ a ∈ as, ∀ p, out a p = []) (p : P) : run eff out as p = [] := by
  induction as generalizing p with
  | nil => rfl
  | cons a as ih => simp [run, h a (by simp), ih (fun b hb => h b (List.mem_cons_of_mem _ hb))]

theorem trimFold_spec (acts : List Action) (st : List Action × List Action) (hst : ∀ a ∈ st.2, a.isOutput = false) :
    (acts.foldl trimStep st).1 ++ (acts.foldl trimStep st).2 = st.1 ++ st.2 ++ acts ∧
      ∀ a ∈ (acts.foldl trimStep st).2, a.isOutput = false ∧ a ∈ st.2 ++ acts := by
  induction acts generalizing st with
  | nil => exact ⟨by simp, fun a ha => ⟨hst a ha, by simpa using ha⟩⟩
  | cons a acts ih =>
    rw [List.foldl_cons]
    rw [show trimStep st a = if a.isOutput then (st.1 ++ st.2 ++ [a], []) else (st.1, st.2 ++ [a]) from rfl]
    split
    · obtain ⟨h1, h2⟩ := ih (st.1 ++ st.2 ++ [a], []) (by simp)
      refine ⟨by rw [h1]; simp, fun b hb => ?_⟩
      obtain ⟨h3, h4⟩ := h2 b hb
      exact ⟨h3, by simp only [List.nil_append] at h4; simp [h4]⟩
    · rename_i ha
      obtain ⟨h1, h2⟩ := ih (st.1, st.2 ++ [a]) (by
        intro b hb
        rcases List.mem_append.1 hb with hb | hb
        · exact hst b hb
        · simp only [List.mem_cons, List.not_mem_nil, or_false] at hb; subst hb; simpa using ha)
      refine ⟨by rw [h1]; simp, fun b hb => ?_⟩
      obtain ⟨h3, h4⟩ := h2 b hb
      exact ⟨h3, by simpa using h4⟩

/-- What was cut is a suffix without output actions; the rest is untouched, and ends with an output. -/
theorem trimActions_prefix (acts : List Action) :
    ∃ cut, acts = trimActions acts ++ cut ∧ ∀ a ∈ cut, a.isOutput = false := by
  obtain ⟨h1, h2⟩ := trimFold_spec acts ([], []) (by simp)
  exact ⟨(acts.foldl trimStep ([], [])).2, by unfold trimActions; rw [h1]; simp, fun a ha => (h2 a ha).1⟩

/-- **C50 (actions).** However the actions act on packets, and whatever groups do, trimming does not change the sequence
of copies sent, provided only output and group actions send anything. -/
theorem trim_preserves_output {P O : Type} (eff : Action → P → P) (out : Action → P → List O)
    (hout : ∀ a p, a.isOutput = false → out a p = []) (acts : List Action) (p : P) :
    run eff out (trimActions acts) p = run eff out acts p := by
  obtain ⟨cut, h, hc⟩ := trimActions_prefix acts
  conv => rhs; rw [h]
  rw [run_append, run_silent eff out cut (fun a ha p => hout a p (hc a ha)), List.append_nil]

/-- Nothing is left that does not matter: the trimmed list is empty or ends with an output. -/
theorem trim_is_tight (acts : List Action) :
    trimActions acts = [] ∨ ∃ l a, trimActions acts = l ++ [a] ∧ a.isOutput = true := by
  unfold trimActions
  have : ∀ (acts : List Action) (st : List Action × List Action), (st.1 = [] ∨ ∃ l a, st.1 = l ++ [a] ∧ a.isOutput = true) →
      ((acts.foldl trimStep st).1 = [] ∨ ∃ l a, (acts.foldl trimStep st).1 = l ++ [a] ∧ a.isOutput = true) := by
    intro acts
    induction acts with
    | nil => intro st h; exact h
    | cons a acts ih =>
      intro st h
      rw [List.foldl_cons]
      apply ih
      unfold trimStep
      split
      · rename_i ha
        exact Or.inr ⟨st.1 ++ st.2, a, rfl, ha⟩
      · exact h
  exact this acts ([], []) (Or.inl rfl)

/-- Specification: running a whole rule. `cont t p` is what the rest of the pipeline sends for a packet sent to table
`t`; meters and metadata may change the packet (`effI`). -/
def runRule {P O : Type} (eff : Action → P → P) (out : Action → P → List O) (effI : Inst → P → P)
    (cont : Nat → P → List O) : List Inst → P → List O
  | [], _ => []
  | .apply as :: is, p => run eff out as p ++ runRule eff out effI cont is (after eff as p)
  | .goto t :: is, p => cont t p ++ runRule eff out effI cont is p
  | i :: is, p => runRule eff out effI cont is (effI i p)

def isApply : Inst → Bool
  | .apply _ => true
  | _ => false

theorem runRule_quiet {P O : Type} (eff : Action → P → P) (out : Action → P → List O) (effI : Inst → P → P)
    (cont : Nat → P → List O) (is : List Inst) (hg : is.any Inst.isGoto = false) (ha : is.any isApply = false) (p : P) :
    runRule eff out effI cont is p = [] := by
  induction is generalizing p with
  | nil => rfl
  | cons i is ih =>
    simp only [List.any_cons, Bool.or_eq_false_iff] at hg ha
    cases i with
    | apply as => exact absurd ha.1 (by simp [isApply])
    | goto t => exact absurd hg.1 (by simp [Inst.isGoto])
    | meter m => exact ih hg.2 ha.2 _
    | writeMetadata v m => exact ih hg.2 ha.2 _

theorem after_append {P : Type} (eff : Action → P → P) (as bs : List Action) (p : P) :
    after eff (as ++ bs) p = after eff bs (after eff as p) := by simp [after]

/-- The trimming of one rule, with the flag fixed. -/
theorem runRule_trim_goto {P O : Type} (eff : Action → P → P) (out : Action → P → List O) (effI : Inst → P → P)
    (cont : Nat → P → List O) (is : List Inst) (p : P) :
    runRule eff out effI cont (is.filterMap (trimOne true)) p = runRule eff out effI cont is p := by
  induction is generalizing p with
  | nil => rfl
  | cons i is ih =>
    cases i with
    | apply as =>
      by_cases has : as = []
      · subst has
        simp [trimOne, runRule, run, after, ih]
      · simp [trimOne, runRule, has, ih]
    | goto t => simp [trimOne, runRule, ih]
    | meter m => simp [trimOne, runRule, ih]
    | writeMetadata v m => simp [trimOne, runRule, ih]

theorem any_trimOne {f : Inst → Bool} (hf : ∀ as, f (.apply as) = false) (b : Bool) (is : List Inst) :
    (is.filterMap (trimOne b)).any f = is.any f := by
  induction is with
  | nil => rfl
  | cons i is ih =>
    cases i with
    | apply as =>
      have hone : trimOne b (.apply as) = none ∨ ∃ l, trimOne b (.apply as) = some (.apply l) := by
        simp only [trimOne]
        generalize (if (!b && !as.any Action.isCt) = true then trimActions as else as) = l
        by_cases h : l = []
        · exact Or.inl (if_pos h)
        · exact Or.inr ⟨l, if_neg h⟩
      rcases hone with h | ⟨l, h⟩
      · rw [List.filterMap_cons, h]; simp only [List.any_cons, hf, Bool.false_or]; exact ih
      · rw [List.filterMap_cons, h]; simp only [List.any_cons, hf, Bool.false_or]; exact ih
    | goto t => simp [trimOne, ih]
    | meter m => simp [trimOne, ih]
    | writeMetadata v m => simp [trimOne, ih]

theorem any_apply_trimOne (b : Bool) (is : List Inst) (h : is.any isApply = false) :
    (is.filterMap (trimOne b)).any isApply = false := by
  induction is with
  | nil => rfl
  | cons i is ih =>
    simp only [List.any_cons, Bool.or_eq_false_iff] at h
    cases i with
    | apply as => exact absurd h.1 (by simp [isApply])
    | goto t => simp [trimOne, ih h.2, isApply]
    | meter m => simp [trimOne, ih h.2, isApply]
    | writeMetadata v m => simp [trimOne, ih h.2, isApply]

theorem runRule_trim_last {P O : Type} (eff : Action → P → P) (out : Action → P → List O) (effI : Inst → P → P)
    (cont : Nat → P → List O) (hout : ∀ a p, a.isOutput = false → a.isCt = false → out a p = [])
    (is : List Inst) (hg : is.any Inst.isGoto = false) (hone : (is.filter isApply).length ≤ 1) (p : P) :
    runRule eff out effI cont (is.filterMap (trimOne false)) p = runRule eff out effI cont is p := by
  induction is generalizing p with
  | nil => rfl
  | cons i is ih =>
    simp only [List.any_cons, Bool.or_eq_false_iff] at hg
    cases i with
    | goto t => exact absurd hg.1 (by simp [Inst.isGoto])
    | meter m => simpa [trimOne, runRule] using ih hg.2 (by simpa [isApply] using hone) (effI (.meter m) p)
    | writeMetadata v m =>
      simpa [trimOne, runRule] using ih hg.2 (by simpa [isApply] using hone) (effI (.writeMetadata v m) p)
    | apply as =>
      have hno : is.any isApply = false := by
        simp only [List.filter_cons, isApply, if_true, List.length_cons] at hone
        have : is.filter isApply = [] := List.length_eq_zero_iff.1 (by omega)
        rw [List.filter_eq_nil_iff] at this
        rw [List.any_eq_false]; exact this
      have hq : ∀ q, runRule eff out effI cont is q = [] := runRule_quiet eff out effI cont is hg.2 hno
      have hq' : ∀ q, runRule eff out effI cont (is.filterMap (trimOne false)) q = [] :=
        runRule_quiet eff out effI cont _ (by rw [any_trimOne (by simp [Inst.isGoto])]; exact hg.2)
          (any_apply_trimOne false is hno)
      simp only [List.filterMap_cons, trimOne, Bool.not_false, Bool.true_and]
      by_cases hct : as.any Action.isCt = true
      · simp only [hct, Bool.not_true, Bool.false_eq_true, if_false]
        by_cases has : as = []
        · subst has; simp at hct
        · simp [has, runRule, hq, hq']
      · have hct' : as.any Action.isCt = false := by simpa using hct
        simp only [hct', Bool.not_false, if_true]
        have hrun : run eff out (trimActions as) p = run eff out as p := by
          obtain ⟨cut, h, hc⟩ := trimActions_prefix as
          have hcut : ∀ a ∈ cut, ∀ p, out a p = [] := by
            intro a ha p
            refine hout a p (hc a ha) ?_
            rw [List.any_eq_false] at hct'
            have := hct' a (by rw [h]; exact List.mem_append_right _ ha)
            simpa using this
          conv => rhs; rw [h]
          rw [run_append, run_silent eff out cut hcut, List.append_nil]
        by_cases ht : trimActions as = []
        · simp only [ht, if_true]
          rw [hq']
          rw [ht] at hrun
          simp [runRule, hq, ← hrun, run]
        · simp [ht, runRule, hq, hq', hrun]

/-- **C50 (rules).** The rule that is sent to the switch sends, for every packet, exactly the copies the rule that was
asked for would send: for every effect of the actions, every rest of the pipeline, and connection-tracking actions that
may send the packet round again. OpenFlow allows one apply-actions instruction in a rule. -/
theorem trimmed_rule_same_output {P O : Type} (eff : Action → P → P) (out : Action → P → List O) (effI : Inst → P → P)
    (cont : Nat → P → List O) (hout : ∀ a p, a.isOutput = false → a.isCt = false → out a p = [])
    (inst : List Inst) (hone : (inst.filter isApply).length ≤ 1) (p : P) :
    runRule eff out effI cont (trimInst inst) p = runRule eff out effI cont inst p := by
  unfold trimInst
  cases hg : inst.any Inst.isGoto with
  | true => exact runRule_trim_goto eff out effI cont inst p
  | false => exact runRule_trim_last eff out effI cont hout inst hg hone p

/-- The same for the switch model of this development. -/
theorem trimmed_actions_same_emits (g : Nat → Option (List (List Action))) (acts : List Action) (p : Pkt) :
    (runActs g (trimActions acts) p).1 = (runActs g acts p).1 := by
  obtain ⟨cut, h, hc⟩ := trimActions_prefix acts
  conv => rhs; rw [h]
  rw [runActs_append]
  have : ∀ (cut : List Action) (p : Pkt), (∀ a ∈ cut, a.isOutput = false) → (runActs g cut p).1 = [] := by
    intro cut
    induction cut with
    | nil => intro p _; rfl
    | cons a as ih =>
      intro p hc
      have ha := hc a (by simp)
      have := fun q => ih q (fun b hb => hc b (List.mem_cons_of_mem _ hb))
      cases a <;> simp [Action.isOutput] at ha <;> simp [runActs, this]
  rw [this cut _ hc]; simp

/-- Dropping the actions of a rule that goes on to another table would not be harmless. -/
example : trimInst [.apply [.setField 6 4196], .goto 3] = [.apply [.setField 6 4196], .goto 3] ∧
    trimInst [.apply [.popVlan, .output 3, .setField 6 4196]] = [.apply [.popVlan, .output 3]] ∧
    trimInst [.apply [.setField 6 4196]] = [] := by decide

/-! ## C54 -/

theorem mem_setAdd {α : Type} [DecidableEq α] {s : List α} {a x : α} : x ∈ setAdd s a ↔ x ∈ s ∨ x = a := by
  unfold setAdd
  split
  · rename_i h
    constructor
    · exact Or.inl
    · rintro (h' | rfl)
      · exact h'
      · exact h
  · simp

theorem nodup_setAdd {α : Type} [DecidableEq α] {s : List α} {a : α} (h : s.Nodup) : (setAdd s a).Nodup := by
  unfold setAdd
  split
  · exact h
  · rename_i hn
    rw [List.nodup_append]
    exact ⟨h, by simp, fun x hx y hy => by
      simp only [List.mem_cons, List.not_mem_nil, or_false] at hy; subst hy; intro he; exact hn (he ▸ hx)⟩

theorem foldl_setAdd {α : Type} [DecidableEq α] (l s : List α) (h : s.Nodup) :
    (l.foldl setAdd s).Nodup ∧ ∀ x, x ∈ l.foldl setAdd s ↔ x ∈ s ∨ x ∈ l := by
  induction l generalizing s with
  | nil => simp [h]
  | cons a l ih =>
    obtain ⟨h1, h2⟩ := ih (setAdd s a) (nodup_setAdd h)
    refine ⟨h1, fun x => ?_⟩
    rw [List.foldl_cons, h2, mem_setAdd, List.mem_cons, or_assoc]

theorem nodup_mkSet {α : Type} [DecidableEq α] (l : List α) : (mkSet l).Nodup := (foldl_setAdd l [] (by simp)).1

theorem mem_mkSet {α : Type} [DecidableEq α] {l : List α} {x : α} : x ∈ mkSet l ↔ x ∈ l := by
  have := (foldl_setAdd l [] (by simp)).2 x
  simpa [mkSet] using this

/-- **C54 (output lists).** De-duplicating a list of outputs gives outputs only, to exactly the same ports, each once, in
increasing order. -/
theorem dedupe_exact (acts : List Action) :
    ∃ ports : List Nat, dedupeOutputs acts = ports.map Action.output ∧ ports.Nodup ∧
      ports.Pairwise (fun a b => a < b) ∧ ∀ p, p ∈ ports ↔ .output p ∈ acts := by
  have hn : (isort (fun a b : Nat => decide (a ≤ b)) (portsFromActs acts)).Nodup :=
    (isort_perm _ _).nodup_iff.2 (nodup_mkSet _)
  refine ⟨_, rfl, hn, ?_, ?_⟩
  · have hle := isort_pairwise (le := fun a b : Nat => decide (a ≤ b)) (fun a b => by simp; omega)
      (fun a b c h1 h2 => by simp at *; omega) (portsFromActs acts)
    have := hle.and hn
    refine this.imp ?_
    rintro a b ⟨h1, h2⟩
    have : a ≤ b := by simpa using h1
    omega
  · intro p
    rw [mem_isort]
    unfold portsFromActs
    rw [mem_mkSet, List.mem_filterMap]
    constructor
    · rintro ⟨a, ha, hp⟩
      cases a <;> simp [outPort?] at hp
      subst hp; exact ha
    · intro h
      exact ⟨_, h, rfl⟩

/-- Invariant of the de-duplicating loop. -/
structure DedupInv (seen : List Action) (d : Dedup) : Prop where
  nodup : d.acts.Nodup
  mem : ∀ a, a ∈ d.acts ↔ a ∈ seen
  ports : ∀ p, p ∈ d.ports ↔ .output p ∈ seen
  portsNodup : d.ports.Nodup
  nonOut : ∀ a, a ∈ d.nonOut ↔ a ∈ seen ∧ outPort? a = none
  sub : d.acts.Sublist seen

theorem dedupStep_nonout (d : Dedup) {a : Action} (ho : outPort? a = none) :
    dedupStep d a = if a ∈ d.nonOut then d else { acts := d.acts ++ [a], ports := d.ports, nonOut := d.nonOut ++ [a] } := by
  cases a <;> simp [outPort?] at ho <;> rfl

theorem dedupStep_new {seen : List Action} {d : Dedup} (h : DedupInv seen d) {a : Action} (ho : outPort? a = none)
    (ha : a ∉ seen) : (dedupStep d a).acts = d.acts ++ [a] := by
  rw [dedupStep_nonout d ho, if_neg (fun hc => ha ((h.nonOut a).1 hc).1)]

theorem fresh_of_nodup {seen acts : List Action} {a : Action} (ho : outPort? a = none)
    (h : ((seen ++ a :: acts).filter (fun a => (outPort? a).isNone)).Nodup) : a ∉ seen := by
  intro hc
  rw [List.filter_append, List.nodup_append] at h
  exact h.2.2 a (List.mem_filter.2 ⟨hc, by simp [ho]⟩) a (List.mem_filter.2 ⟨by simp, by simp [ho]⟩) rfl

theorem dedupStep_inv_nonout {seen : List Action} {d : Dedup} (h : DedupInv seen d) {a : Action} (ho : outPort? a = none)
    (ha : a ∉ seen) (hnod : (d.acts ++ [a]).Nodup) (hmem : ∀ b, b ∈ d.acts ++ [a] ↔ b ∈ seen ++ [a])
    (hsub : (d.acts ++ [a]).Sublist (seen ++ [a])) : DedupInv (seen ++ [a]) (dedupStep d a) := by
  rw [dedupStep_nonout d ho, if_neg (fun hc => ha ((h.nonOut a).1 hc).1)]
  refine ⟨hnod, hmem, ?_, h.portsNodup, ?_, hsub⟩
  · intro p
    simp only [h.ports p, List.mem_append, List.mem_cons, List.not_mem_nil, or_false]
    constructor
    · exact Or.inl
    · rintro (h' | rfl)
      · exact h'
      · simp [outPort?] at ho
  · intro b
    simp only [h.nonOut b, List.mem_append, List.mem_cons, List.not_mem_nil, or_false]
    constructor
    · rintro (⟨h1, h2⟩ | rfl)
      · exact ⟨Or.inl h1, h2⟩
      · exact ⟨Or.inr rfl, ho⟩
    · rintro ⟨h1 | rfl, h2⟩
      · exact Or.inl ⟨h1, h2⟩
      · exact Or.inr rfl

theorem dedupStep_inv {seen : List Action} {d : Dedup} (h : DedupInv seen d) (a : Action) :
    DedupInv (seen ++ [a]) (dedupStep d a) := by
  by_cases ha : a ∈ seen
  · have hd : dedupStep d a = d := by
      cases a with
      | output p => simp [dedupStep, (h.ports p).2 ha]
      | _ => simp [dedupStep, (h.nonOut _).2 ⟨ha, rfl⟩]
    have hm : ∀ b, b ∈ seen ++ [a] ↔ b ∈ seen := by
      intro b; simp only [List.mem_append, List.mem_cons, List.not_mem_nil, or_false]
      constructor
      · rintro (h | rfl)
        · exact h
        · exact ha
      · exact Or.inl
    rw [hd]
    exact ⟨h.nodup, fun b => by rw [hm]; exact h.mem b, fun p => by rw [hm]; exact h.ports p, h.portsNodup,
      fun b => by rw [hm]; exact h.nonOut b, h.sub.trans (List.sublist_append_left _ _)⟩
  · have hna : a ∉ d.acts := fun hc => ha ((h.mem a).1 hc)
    have hnod : (d.acts ++ [a]).Nodup := by
      rw [List.nodup_append]
      exact ⟨h.nodup, by simp, fun x hx y hy => by
        simp only [List.mem_cons, List.not_mem_nil, or_false] at hy; subst hy; intro he; exact hna (he ▸ hx)⟩
    have hmem : ∀ b, b ∈ d.acts ++ [a] ↔ b ∈ seen ++ [a] := by
      intro b; simp [h.mem b]
    have hsub : (d.acts ++ [a]).Sublist (seen ++ [a]) := h.sub.append (List.Sublist.refl _)
    cases a with
    | output p =>
      have hp : p ∉ d.ports := fun hc => ha ((h.ports p).1 hc)
      have hd : dedupStep d (.output p) = { acts := d.acts ++ [.output p], ports := d.ports ++ [p], nonOut := d.nonOut } := by
        simp [dedupStep, hp]
      rw [hd]
      refine ⟨hnod, hmem, ?_, ?_, ?_, hsub⟩
      · intro q; simp [h.ports q]
      · rw [List.nodup_append]
        exact ⟨h.portsNodup, by simp, fun x hx y hy => by
          simp only [List.mem_cons, List.not_mem_nil, or_false] at hy; subst hy; intro he; exact hp (he ▸ hx)⟩
      · intro b
        simp only [h.nonOut b, List.mem_append, List.mem_cons, List.not_mem_nil, or_false]
        constructor
        · rintro ⟨h1, h2⟩; exact ⟨Or.inl h1, h2⟩
        · rintro ⟨h1 | rfl, h2⟩
          · exact ⟨h1, h2⟩
          · simp [outPort?] at h2
    | _ => exact dedupStep_inv_nonout h rfl ha hnod hmem hsub

theorem dedup_inv (acts : List Action) : DedupInv acts (dedupFold acts) := by
  have : ∀ (acts seen : List Action) (d : Dedup), DedupInv seen d → DedupInv (seen ++ acts) (acts.foldl dedupStep d) := by
    intro acts
    induction acts with
    | nil => intro seen d h; simpa using h
    | cons a acts ih =>
      intro seen d h
      have := ih (seen ++ [a]) (dedupStep d a) (dedupStep_inv h a)
      simpa using this
  exact this acts [] {} ⟨by simp, by simp, by simp, by simp, by simp, .refl _⟩

/-- **C54 (flood actions).** The cleaned-up list keeps the original order, contains exactly the same actions, each once;
in particular it outputs to exactly the same ports, each once. The reported set of ports is that set, and the reported
other actions are exactly the non-output actions except removing the tag. -/
theorem cleanup_exact (acts : List Action) :
    (outputNonOutput acts).1.Sublist acts ∧ (outputNonOutput acts).1.Nodup ∧
    (∀ a, a ∈ (outputNonOutput acts).1 ↔ a ∈ acts) ∧
    ((outputNonOutput acts).1.filterMap outPort?).Nodup ∧
    (outputNonOutput acts).2.1.Nodup ∧ (∀ p, p ∈ (outputNonOutput acts).2.1 ↔ .output p ∈ acts) ∧
    (∀ a, a ∈ (outputNonOutput acts).2.2 ↔ a ∈ acts ∧ (∀ p, a ≠ .output p) ∧ a ≠ .popVlan) := by
  have h := dedup_inv acts
  refine ⟨h.sub, h.nodup, h.mem, ?_, h.portsNodup, h.ports, ?_⟩
  · have hn := h.nodup
    show ((dedupFold acts).acts.filterMap outPort?).Nodup
    generalize (dedupFold acts).acts = l at hn
    induction l with
    | nil => simp
    | cons a l ih =>
      obtain ⟨h1, h2⟩ := List.nodup_cons.1 hn
      cases a with
      | output p =>
        rw [List.filterMap_cons_some (by rfl : outPort? (.output p) = some p)]
        refine List.nodup_cons.2 ⟨?_, ih h2⟩
        rw [List.mem_filterMap]
        rintro ⟨b, hb, hp⟩
        cases b <;> simp [outPort?] at hp
        subst hp; exact h1 hb
      | _ => rw [List.filterMap_cons_none rfl]; exact ih h2
  · intro a
    show a ∈ (dedupFold acts).nonOut.filter (fun a => a != .popVlan) ↔ _
    rw [List.mem_filter, h.nonOut]
    have : outPort? a = none ↔ ∀ p, a ≠ .output p := by
      cases a <;> simp [outPort?]
    rw [this]
    simp only [bne_iff_ne, ne_eq, and_assoc]

example : outputNonOutput [.output 2, .output 3, .popVlan, .output 2, .output 4] =
    ([.output 2, .output 3, .popVlan, .output 4], [2, 3, 4], []) := by decide

example : dedupeOutputs [.output 3, .output 1, .output 3] = [.output 1, .output 3] := by decide

/-! ### The first copy to each port is the one that is kept -/

/-- Specification: the copy a port gets first, when the actions run with any effect on packets. -/
def firstCopy {P : Type} (eff : Action → P → P) (q : Nat) : List Action → P → Option P
  | [], _ => none
  | .output n :: as, p => if n = q then some p else firstCopy eff q as p
  | a :: as, p => firstCopy eff q as (eff a p)

theorem firstCopy_append {P : Type} (eff : Action → P → P) (heff : ∀ n p, eff (.output n) p = p) (q : Nat)
    (as bs : List Action) (p : P) :
    firstCopy eff q (as ++ bs) p = (firstCopy eff q as p).or (firstCopy eff q bs (after eff as p)) := by
  induction as generalizing p with
  | nil => simp [firstCopy, after]
  | cons a as ih =>
    cases a with
    | output n =>
      simp only [List.cons_append, firstCopy]
      split
      · simp
      · rw [ih]; simp [after, heff]
    | _ => simp [firstCopy, ih, after]

theorem firstCopy_none {P : Type} (eff : Action → P → P) (q : Nat) (as : List Action) (p : P) :
    firstCopy eff q as p = none ↔ .output q ∉ as := by
  induction as generalizing p with
  | nil => simp [firstCopy]
  | cons a as ih =>
    cases a with
    | output n =>
      simp only [firstCopy, List.mem_cons, Action.output.injEq, not_or]
      split
      · rename_i h; simp [h]
      · rename_i h; rw [ih]; simp [Ne.symm h]
    | _ => simp [firstCopy, ih]

/-- If no non-output action is repeated, the packet after the cleaned-up actions and every port's first copy are the same. -/
theorem cleanup_keeps_first_copies {P : Type} (eff : Action → P → P) (heff : ∀ n p, eff (.output n) p = p)
    (acts : List Action) (hn : (acts.filter (fun a => (outPort? a).isNone)).Nodup) (p : P) :
    after eff (outputNonOutput acts).1 p = after eff acts p ∧
      ∀ q, firstCopy eff q (outputNonOutput acts).1 p = firstCopy eff q acts p := by
  show after eff (dedupFold acts).acts p = after eff acts p ∧ _
  have key : ∀ (acts seen : List Action) (d : Dedup), DedupInv seen d →
      ((seen ++ acts).filter (fun a => (outPort? a).isNone)).Nodup →
      after eff d.acts p = after eff seen p → (∀ q, firstCopy eff q d.acts p = firstCopy eff q seen p) →
      after eff (acts.foldl dedupStep d).acts p = after eff (seen ++ acts) p ∧
        ∀ q, firstCopy eff q (acts.foldl dedupStep d).acts p = firstCopy eff q (seen ++ acts) p := by
    intro acts
    induction acts with
    | nil => intro seen d _ _ h1 h2; simpa using ⟨h1, h2⟩
    | cons a acts ih =>
      intro seen d hd hnod h1 h2
      have hres := ih (seen ++ [a]) (dedupStep d a) (dedupStep_inv hd a) (by simpa using hnod)
      simp only [List.append_assoc, List.cons_append, List.nil_append] at hres
      apply hres
      · cases a with
        | output n =>
          simp only [after_append]
          simp only [dedupStep]
          split
          · simp [after, heff] at h1 ⊢; exact h1
          · simp [after, heff] at h1 ⊢; exact h1
        | _ =>
          all_goals
            rw [dedupStep_new hd rfl (fresh_of_nodup rfl hnod), after_append, after_append, h1]
      · intro q
        cases a with
        | output n =>
          rw [firstCopy_append eff heff, ← h2]
          simp only [dedupStep]
          split
          · rename_i hin
            have : Action.output n ∈ d.acts := (hd.mem _).2 ((hd.ports n).1 hin)
            by_cases hq : n = q
            · subst hq
              cases hc : firstCopy eff n d.acts p with
              | none => exact absurd this ((firstCopy_none eff n d.acts p).1 hc)
              | some x => simp
            · simp [firstCopy, hq]
          · rw [firstCopy_append eff heff, h1]
        | _ =>
          all_goals
            rw [dedupStep_new hd rfl (fresh_of_nodup rfl hnod), firstCopy_append eff heff, firstCopy_append eff heff,
              h1, h2]
  have := key acts [] {} ⟨by simp, by simp, by simp, by simp, by simp, .refl _⟩ (by simpa using hn) rfl (fun _ => rfl)
  exact this

/-! ### Group buckets -/

/-- **C54 (groups).** The group built from a flood list sends every port the copies the list itself would send it, in the
same order. -/
theorem buckets_same_emits (g : Nat → Option (List (List Action))) (acts : List Action)
    (hng : ∀ i, Action.group i ∉ acts) (p : Pkt) :
    (floodBuckets acts).flatMap (fun b => runBucket b p) = (runActs g acts p).1 := by
  have hb : ∀ (l : List Action) (n : Nat) (p : Pkt), (∀ a ∈ l, outPort? a = none) →
      runBucket (l ++ [.output n]) p = emitPort (after Action.apply l p) n := by
    intro l n
    induction l with
    | nil => intro p _; simp [runBucket, after]
    | cons a l ih =>
      intro p hl
      have ha := hl a (by simp)
      have := ih (a.apply p) (fun b hb => hl b (List.mem_cons_of_mem _ hb))
      cases a <;> simp [outPort?] at ha <;> simpa [runBucket, after] using this
  have key : ∀ (acts : List Action) (bs : List (List Action)) (non : List Action), (∀ i, Action.group i ∉ acts) →
      (∀ a ∈ non, outPort? a = none) →
      (acts.foldl bucketStep (bs, non)).1.flatMap (fun b => runBucket b p) =
        bs.flatMap (fun b => runBucket b p) ++ (runActs g acts (after Action.apply non p)).1 := by
    intro acts
    induction acts with
    | nil => intro bs non _ _; simp [runActs]
    | cons a acts ih =>
      intro bs non hng hnon
      have hng' : ∀ i, Action.group i ∉ acts := fun i hi => hng i (List.mem_cons_of_mem _ hi)
      have hstep : ∀ b, outPort? b = none → ∀ x ∈ non ++ [b], outPort? x = none := by
        intro b hb x hx
        rcases List.mem_append.1 hx with hx | hx
        · exact hnon x hx
        · simp only [List.mem_cons, List.not_mem_nil, or_false] at hx; subst hx; exact hb
      cases a with
      | output n =>
        rw [List.foldl_cons]
        simp only [bucketStep]
        rw [ih _ _ hng' hnon]
        simp [runActs, hb non n p hnon]
      | group i => exact absurd (List.mem_cons_self) (hng i)
      | _ =>
        all_goals
          rw [List.foldl_cons]
          simp only [bucketStep]
          rw [ih _ _ hng' (hstep _ rfl)]
          simp [runActs, after]
  have := key acts [] [] hng (by simp)
  simpa [floodBuckets, after] using this

example : floodBuckets [.output 1, .popVlan, .output 2, .output 3] =
    [[.output 1], [.popVlan, .output 2], [.popVlan, .output 3]] := by decide

end Faucet.Actions
