import Verif.Learn.Props

/-! # Learning: what the batches of messages do to the switch -/

namespace Faucet.Learn
open Faucet.OF
open Faucet.HostCache (Port Entry Vlan Inv)
open Faucet.FlowReorder (Simple deletesFirst)

/-! ## Trimming leaves the host rules alone -/

theorem trimFold_append (l : List Action) (st : List Action × List Action) :
    (l.foldl trimStep st).1 ++ (l.foldl trimStep st).2 = st.1 ++ st.2 ++ l := by
  induction l generalizing st with
  | nil => simp
  | cons a l ih =>
    simp only [List.foldl_cons]
    rw [ih]
    unfold trimStep
    split <;> simp

theorem trimActions_snoc (l : List Action) (a : Action) (ha : a.isOutput = true) :
    trimActions (l ++ [a]) = l ++ [a] := by
  unfold trimActions
  rw [List.foldl_append]
  simp only [List.foldl_cons, List.foldl_nil]
  have := trimFold_append l ([], [])
  generalize l.foldl trimStep ([], []) = r at this ⊢
  simp only [List.append_nil, List.nil_append] at this
  simp only [trimStep, if_pos ha, this]

theorem outputPort_snoc (cfg : Cfg) (p vid : Nat) (hp : Bool) (ext : Option Bool) :
    ∃ l a, outputPort cfg p vid hp ext = l ++ [a] ∧ a.isOutput = true ∧ l.any Action.isCt = false ∧ a.isCt = false := by
  have hany : ∀ l : List Nat, (l.map Action.output).any Action.isCt = false := by
    intro l; induction l with
    | nil => rfl
    | cons a l ih => simp [Action.isCt]
  have hm := hany (cfg.mirror p)
  unfold outputPort
  simp only
  split
  · refine ⟨_, _, rfl, ?_, ?_, ?_⟩
    · split <;> rfl
    · rw [List.any_append, hm]; rfl
    · split <;> rfl
  · refine ⟨_, _, rfl, ?_, ?_, ?_⟩
    · split <;> rfl
    · rw [List.any_append, hm]; rcases ext with _ | _ | _ <;> rfl
    · split <;> rfl

theorem trimInst_output (cfg : Cfg) (p vid : Nat) (hp : Bool) (ext : Option Bool) :
    trimInst (pipelineOutput cfg p vid hp ext) = pipelineOutput cfg p vid hp ext := by
  unfold pipelineOutput
  split
  · simp [trimInst, trimOne]
  · obtain ⟨l, a, h1, h2, h3, h4⟩ := outputPort_snoc cfg p vid hp ext
    rw [h1]
    have hct : (l ++ [a]).any Action.isCt = false := by rw [List.any_append, h3]; simp [h4]
    simp [trimInst, trimOne, Inst.isGoto, hct, trimActions_snoc l a h2]

theorem trimInst_dst (cfg : Cfg) (p vid : Nat) : trimInst (dstInst cfg p vid) = dstInst cfg p vid :=
  trimInst_output cfg p vid false _

theorem trimInst_goto (t : Nat) : trimInst [.goto t] = [.goto t] := by simp [trimInst, trimOne]

/-! ## Batches are simple -/

theorem simple_add {c : Nat} {t : Table} (ht : t.id ≠ tableAll) (hc : t.cookie = c) (items : List MatchItem)
    (prio : Nat) (hp : prio ≠ 0) (inst : List Inst) (hard idle : Nat) : Simple c (t.flowadd items prio inst hard idle) :=
  ⟨_, rfl, ht, hc, rfl, Or.inr ⟨rfl, hp⟩⟩

theorem simple_del {c : Nat} {t : Table} (ht : t.id ≠ tableAll) (hc : t.cookie = c) (items : List MatchItem)
    (op : Option Nat) : Simple c (t.flowdel items 0 op) :=
  ⟨_, rfl, ht, hc, rfl, Or.inl ⟨rfl, rfl⟩⟩

theorem deleteHost_simple {cfg : Cfg} (hw : cfg.WF) (m vid : Nat) :
    ∀ x ∈ deleteHost cfg m vid, Simple cfg.ethSrc.cookie x := by
  intro x hx
  simp only [deleteHost, List.mem_append, List.mem_cons, List.not_mem_nil, or_false] at hx
  rcases hx with (rfl | rfl) | hx
  · exact simple_del hw.srcReal rfl _ _
  · exact simple_del hw.dstReal hw.dstCookie _ _
  · split at hx
    · rename_i t ht
      have := hw.hairpinOk t ht
      simp only [List.mem_cons, List.not_mem_nil, or_false] at hx
      subst hx
      exact simple_del this.1 this.2.2.2.2 _ _
    · cases hx

theorem delHostFlows_simple {cfg : Cfg} (hw : cfg.WF) (n : Nat) :
    ∀ x ∈ delHostFlows cfg n, Simple cfg.ethSrc.cookie x := by
  intro x hx
  simp only [delHostFlows, List.mem_append, List.mem_cons, List.not_mem_nil, or_false] at hx
  rcases hx with (rfl | rfl) | hx
  · exact simple_del hw.srcReal rfl _ _
  · exact simple_del hw.dstReal hw.dstCookie _ _
  · split at hx
    · rename_i t ht
      have := hw.hairpinOk t ht
      simp only [List.mem_cons, List.not_mem_nil, or_false] at hx
      subst hx
      exact simple_del this.1 this.2.2.2.2 _ _
    · cases hx

/-- The messages of a learn: what is in them. -/
inductive LearnMsg (cfg : Cfg) (p : Port) (vid m : Nat) (del refresh : Bool) (tmo : Nat × Nat × Nat) : OfMsg → Prop
  | del (h : del = true) (x : OfMsg) (hx : x ∈ deleteHost cfg m vid) : LearnMsg cfg p vid m del refresh tmo x
  | src : LearnMsg cfg p vid m del refresh tmo
      (cfg.ethSrc.flowadd [iInPort p.number, iEthSrc m, iVlan vid] (matchPriority - 1) [.goto (outputTable cfg)] tmo.2.1 tmo.1)
  | dst (h : refresh = false ∨ p.hairpin = true ∨ p.hairpinUnicast = true) : LearnMsg cfg p vid m del refresh tmo
      (cfg.ethDst.flowadd (dstItems m vid (extFlag cfg)) matchPriority (dstInst cfg p.number vid) 0 tmo.2.2)
  | dst2 (h : cfg.hasExternals = true) (h2 : cfg.loopProtectExternal p.number = false)
      (h3 : refresh = false ∨ p.hairpin = true ∨ p.hairpinUnicast = true) :
      LearnMsg cfg p vid m del refresh tmo
      (cfg.ethDst.flowadd (dstItems m vid (some pcpNonExt)) matchPriority (dstInst cfg p.number vid) 0 tmo.2.2)
  | hairpin (h : p.hairpin = true ∨ p.hairpinUnicast = true) (t : Table) (ht : cfg.hairpin = some t) :
      LearnMsg cfg p vid m del refresh tmo
      (t.flowadd [iInPort p.number, iEthDst m, iVlan vid] matchPriority (pipelineOutput cfg p.number vid true none) 0 tmo.2.2)

theorem mem_learnFlows {cfg : Cfg} {p : Port} {vid m : Nat} {del refresh : Bool} {tmo : Nat × Nat × Nat} {x : OfMsg} :
    x ∈ learnFlows cfg p vid m del refresh tmo ↔ LearnMsg cfg p vid m del refresh tmo x := by
  unfold learnFlows
  simp only [List.mem_append, List.mem_cons, List.not_mem_nil, or_false]
  constructor
  · rintro ((h | rfl) | h)
    · split at h
      · rename_i hd; exact .del hd x h
      · cases h
    · exact .src
    · split at h
      · cases h
      · rename_i hr
        have hr' : refresh = false ∨ p.hairpin = true ∨ p.hairpinUnicast = true := by
          cases refresh <;> cases h1 : p.hairpin <;> cases h2 : p.hairpinUnicast <;> simp_all
        simp only [List.mem_append, List.mem_cons, List.not_mem_nil, or_false] at h
        rcases h with (rfl | h) | h
        · exact .dst hr'
        · split at h
          · rename_i he
            simp only [Bool.and_eq_true, Bool.not_eq_true'] at he
            simp only [List.mem_cons, List.not_mem_nil, or_false] at h
            subst h
            exact .dst2 he.1 he.2 hr'
          · cases h
        · split at h
          · rename_i hh
            split at h
            · rename_i t ht
              simp only [List.mem_cons, List.not_mem_nil, or_false] at h
              subst h
              exact .hairpin (by simpa using hh) t ht
            · cases h
          · cases h
  · intro h
    have href : refresh = false ∨ p.hairpin = true ∨ p.hairpinUnicast = true →
        (refresh && !(p.hairpin || p.hairpinUnicast)) = false := by
      rintro (h | h | h) <;> simp [h]
    cases h with
    | del h _ hx => exact Or.inl (Or.inl (by rw [if_pos h]; exact hx))
    | src => exact Or.inl (Or.inr rfl)
    | dst h =>
      right
      rw [if_neg (by rw [href h]; simp)]
      simp
    | dst2 h h2 h3 =>
      right
      rw [if_neg (by rw [href h3]; simp)]
      simp [h, h2]
    | hairpin h t ht =>
      right
      rw [if_neg (by rw [href (Or.inr h)]; simp)]
      have : (p.hairpin || p.hairpinUnicast) = true := by rcases h with h | h <;> simp [h]
      simp [this, ht]

theorem learnFlows_simple {cfg : Cfg} (hw : cfg.WF) (p : Port) (vid m : Nat) (del refresh : Bool) (tmo : Nat × Nat × Nat) :
    ∀ x ∈ learnFlows cfg p vid m del refresh tmo, Simple cfg.ethSrc.cookie x := by
  intro x hx
  cases mem_learnFlows.1 hx with
  | del _ _ h => exact deleteHost_simple hw m vid x h
  | src => exact simple_add hw.srcReal rfl _ _ (by decide) _ _ _
  | dst _ => exact simple_add hw.dstReal hw.dstCookie _ _ (by decide) _ _ _
  | dst2 _ _ _ => exact simple_add hw.dstReal hw.dstCookie _ _ (by decide) _ _ _
  | hairpin _ t ht =>
    have := hw.hairpinOk t ht
    exact simple_add this.1 this.2.2.2.2 _ _ (by decide) _ _ _

theorem banRules_simple {cfg : Cfg} (st : St) (p : Port) (vid m : Nat) :
    ∀ x ∈ banRules cfg st p vid m, ∃ items, x = tempBan cfg items := by
  intro x hx
  unfold banRules at hx
  split at hx
  · rcases List.mem_append.1 hx with h | h
    · split at h
      · simp only [List.mem_cons, List.not_mem_nil, or_false] at h; exact ⟨_, h⟩
      · cases h
    · split at h
      · simp only [List.mem_cons, List.not_mem_nil, or_false] at h; exact ⟨_, h⟩
      · cases h
  · cases hx

theorem tempBan_simple {cfg : Cfg} (hw : cfg.WF) (items : List MatchItem) : Simple cfg.ethSrc.cookie (tempBan cfg items) :=
  simple_add hw.srcReal rfl _ _ (by decide) _ _ _

theorem permCheck_mem {cfg : Cfg} {e : Entry} {p : Port} {m : Nat} {msgs : List OfMsg}
    (h : permCheck cfg (some e) p m = some msgs) : ∀ x ∈ msgs,
      x = cfg.classification.flowdrop [iInPort p.number, iEthSrc m] filterPriority := by
  unfold permCheck at h
  simp only at h
  split at h
  · cases h
    intro x hx
    split at hx
    · cases hx
    · simpa using hx
  · cases h

/-! ## Matches -/

theorem vidPresent_inj {a b : Nat} (ha : a < 4096) (hb : b < 4096) (h : vidPresent a = vidPresent b) : a = b := by
  have h2 : ∀ x, x < 4096 → vidPresent x = x + 4096 := by
    intro x hx
    unfold vidPresent vidPresentBit
    have := Nat.two_pow_add_eq_or_of_lt (i := 12) (b := x) (by omega) 1
    rw [Nat.or_comm]
    simp at this
    omega
  rw [h2 a ha, h2 b hb] at h
  omega

theorem covers_self (a : MatchItem) (h : a.mask = none) : a.covers a = true := by
  unfold MatchItem.covers; simp [h]

theorem dstItems_inj {m m' vid vid' : Nat} {p : Option Nat} (h : vid < 4096) (h' : vid' < 4096)
    (he : dstItems m vid p = dstItems m' vid' p) : m = m' ∧ vid = vid' := by
  simp only [dstItems, iEthDst, iVlan, List.cons_append, List.nil_append, List.cons.injEq, MatchItem.mk.injEq] at he
  exact ⟨he.1.2.1, vidPresent_inj h h' he.2.1.2.1⟩

/-! ## Sending a batch -/

/-- Sending a simple batch: no exception, and afterwards each rule is one the batch adds, or an old one that
no delete of the batch matches; and each rule the batch adds is there. -/
theorem send {cfg : Cfg} {sh : List OfMsg → List OfMsg} (hsh : ∀ l, (sh l).Perm l) (bar : Bool)
    {ms : List OfMsg} (h : ∀ x ∈ ms, Simple cfg.ethSrc.cookie x) :
    ∃ out, FlowReorder.reorder sh bar ms = some out ∧ ∀ sw : Switch,
      (∀ s b, (sw.execAll out).flows s = some b →
        (∃ f, .flow f ∈ ms ∧ f.cmd = .add ∧ f.slot = s ∧ f.body = b) ∨
        (sw.flows s = some b ∧ (∀ f, .flow f ∈ ms → f.cmd = .delete → f.kills s b = false) ∧
          (∀ f, .flow f ∈ ms → f.cmd = .add → f.slot ≠ s))) ∧
      (∀ f, .flow f ∈ ms → f.cmd = .add → ∃ g, .flow g ∈ ms ∧ g.cmd = .add ∧ g.slot = f.slot ∧
        (sw.execAll out).flows f.slot = some g.body) := by
  obtain ⟨out, h1, h2⟩ := FlowReorder.simple_reorder hsh bar h
  refine ⟨out, h1, fun sw => ⟨?_, ?_⟩⟩
  · intro s b hb
    rw [h2] at hb
    have hd : ∀ m ∈ deletesFirst ms, Simple cfg.ethSrc.cookie m := fun m hm => h m (FlowReorder.mem_deletesFirst.1 hm)
    rcases FlowReorder.exec_some hd sw s b hb with ⟨f, hf, h3⟩ | ⟨h3, h4, h5⟩
    · exact Or.inl ⟨f, FlowReorder.mem_deletesFirst.1 hf, h3⟩
    · exact Or.inr ⟨h3, fun f hf => h4 f (FlowReorder.mem_deletesFirst.2 hf),
        fun f hf => h5 f (FlowReorder.mem_deletesFirst.2 hf)⟩
  · intro f hf hc
    rw [h2]
    exact FlowReorder.exec_add h sw f hf hc

/-- Two ports between which a host is not considered tmo move: the same port or members of one LAG. -/
def SamePlace (cfg : Cfg) (q r : Nat) : Prop :=
  q = r ∨ ((cfg.port q).lacp ≠ 0 ∧ (cfg.port q).lacp = (cfg.port r).lacp)

theorem SamePlace.trans {cfg : Cfg} {a b c : Nat} (h1 : SamePlace cfg a b) (h2 : SamePlace cfg b c) :
    SamePlace cfg a c := by
  rcases h1 with rfl | ⟨h1, h1'⟩
  · exact h2
  · rcases h2 with rfl | ⟨h2, h2'⟩
    · exact Or.inr ⟨h1, h1'⟩
    · exact Or.inr ⟨h1, h1'.trans h2'⟩

theorem SamePlace.symm {cfg : Cfg} {a b : Nat} (h1 : SamePlace cfg a b) : SamePlace cfg b a := by
  rcases h1 with rfl | ⟨h1, h1'⟩
  · exact Or.inl rfl
  · exact Or.inr ⟨h1' ▸ h1, h1'.symm⟩

/-- What a cache check that goes on implies. -/
theorem cacheCheck_some {cfg : Cfg} (hw : cfg.WF) {st : St} (hi : CInv cfg st) {now : Int} {n vid m : Nat}
    {d del refresh : Bool} (h : cacheCheck cfg st now (host st vid m) (cfg.port n) d = some (del, refresh)) :
    (∃ e, host st vid m = some e ∧ SamePlace cfg n e.port.number ∧ del = false) ∨
    (refresh = false ∧ del = d ∧ ∀ e, host st vid m = some e → ¬ SamePlace cfg n e.port.number) := by
  unfold cacheCheck at h
  cases he : host st vid m with
  | none =>
    rw [he] at h
    simp only [Option.some.injEq, Prod.mk.injEq] at h
    exact Or.inr ⟨h.2.symm, h.1.symm, by simp⟩
  | some e =>
    rw [he] at h
    simp only at h
    have hep := hi.port vid m e he
    have hsl : sameLag (cfg.port n) e.port = true ↔
        ((cfg.port n).lacp ≠ 0 ∧ (cfg.port n).lacp = (cfg.port e.port.number).lacp) := by
      rw [← hep]; simp [sameLag]
    by_cases hc : e.port.number = (cfg.port n).number ∨ sameLag (cfg.port n) e.port = true
    · rw [if_pos hc] at h
      left
      refine ⟨e, rfl, ?_, ?_⟩
      · rcases hc with hc | hc
        · left; rw [hc, hw.portNum]
        · right; exact hsl.1 hc
      · split at h
        · split at h
          · cases h
          · simp only [Option.some.injEq, Prod.mk.injEq] at h; exact h.1.symm
        · split at h
          · cases h
          · simp only [Option.some.injEq, Prod.mk.injEq] at h; exact h.1.symm
    · rw [if_neg hc] at h
      simp only [Option.some.injEq, Prod.mk.injEq] at h
      refine Or.inr ⟨h.2.symm, h.1.symm, ?_⟩
      intro e' he' hs
      cases he'
      apply hc
      rcases hs with hs | hs
      · left; rw [hw.portNum, hs]
      · right; exact hsl.2 hs

end Faucet.Learn
