import Verif.Features.Law
import Verif.Flood.Lemmas

/-!
# The rules of a switch without routing fit their tables
-/

namespace Faucet.Features
open Faucet.OF
open Faucet.Pipeline (Tbl Conf idOf)
open Faucet.L2 (Cfg LPort LVlan Dyn)
open Faucet.Learn (iInPort iEthDst iEthSrc iVlan iPcp)

/-! ## Helpers -/

theorem table_of {s : Setup} {t : Tbl} (h : Pipeline.included s.conf t = true) :
    ∃ x, Pipeline.table s.conf x.name = some x ∧ x.name = t ∧ idOf s.conf t = x.id := by
  obtain ⟨x, hx⟩ := Pipeline.exists_table h
  have e := (Pipeline.table_mem hx).2
  refine ⟨x, ?_, e, ?_⟩
  · rw [e]; exact hx
  · simp [idOf, hx]

/-- A goto of `ValveTable.goto` is to a next table. -/
theorem goto_next {c : Conf} {a b : Tbl} {i : Inst} (h : Pipeline.goto c a b = some i) :
    i = .goto (idOf c b) ∧ idOf c b ∈ nextIds c a := by
  unfold Pipeline.goto at h
  obtain ⟨s, hs, h⟩ := Option.bind_eq_some_iff.1 h
  obtain ⟨d, hd, h⟩ := Option.bind_eq_some_iff.1 h
  split at h
  · rename_i hc
    cases h
    have e : idOf c b = d.id := by simp [idOf, hd]
    refine ⟨by rw [e], ?_⟩
    unfold nextIds
    rw [hs]
    exact List.mem_map.2 ⟨b, by simpa using hc, rfl⟩
  · cases h

/-- A table that the standard pipeline has as next table is announced. -/
theorem next_std {c : Conf} {a b : Tbl} (ha : Pipeline.included c a = true) (hb : Pipeline.included c b = true)
    (h : ∃ x ∈ Pipeline.standard, x.name = a ∧ b ∈ x.next) : idOf c b ∈ nextIds c a := by
  obtain ⟨x, hx, ex, hm⟩ := h
  have g := Pipeline.goto_eq ha hb hx ex hm
  obtain ⟨d, hd⟩ := Pipeline.exists_table hb
  exact (goto_next (by rw [g]; unfold Pipeline.gotoThis; rw [hd]; rfl)).2

section
variable {h : Hardware} {s : Setup} {eg : Bool}

theorem law_rule {t : Tbl} (ht : Pipeline.included s.conf t = true) {f : FlowMod} (e : f.table = idOf s.conf t)
    (l : RuleLaw h (s.decl t) (nextIds s.conf t) eg f) : FlowLaw h s eg f := by
  obtain ⟨x, h1, rfl, h3⟩ := table_of ht
  exact Or.inr ⟨x, h1, by rw [e, h3], Or.inl l⟩

/-- A rule that is added. -/
theorem law_add {t : Tbl} (ht : Pipeline.included s.conf t = true) {T : Table} (e : T.id = idOf s.conf t)
    {is : List MatchItem} {prio : Nat} {inst : List Inst} {hard idle : Nat} (hp : prio ≠ 0)
    (hs : shapeOk (s.decl t) (shape is) = true) (ho : distinct (shape is) = true) (hw : WellFormed is)
    (hm : ∀ i ∈ is, i.field = fMetadata → ∀ m, i.mask = some m → Bits m (s.decl t).metadataMatch)
    (hi : InstsOk h (s.decl t) (nextIds s.conf t) eg inst) : MsgLaw h s eg (T.flowadd is prio inst hard idle) :=
  law_rule ht e ⟨Or.inl rfl, hp, hs, ho, hw, hm, trim_ok hi⟩

theorem insts_nil {d : Decl} {nx : List Nat} : InstsOk h d nx eg [] := fun _ hi => absurd hi List.not_mem_nil

theorem insts_apply {d : Decl} {nx : List Nat} {as : List Action} (ha : ∀ a ∈ as, actOk h d a = true) :
    InstsOk h d nx eg [.apply as] := by
  intro i hi
  cases List.mem_singleton.1 hi
  exact ha

theorem insts_goto {d : Decl} {nx : List Nat} {n : Nat} (hn : n ∈ nx) : InstsOk h d nx eg [.goto n] := by
  intro i hi
  cases List.mem_singleton.1 hi
  exact Or.inr hn

theorem insts_append {d : Decl} {nx : List Nat} {a b : List Inst} (ha : InstsOk h d nx eg a) (hb : InstsOk h d nx eg b) :
    InstsOk h d nx eg (a ++ b) := by
  intro i hi
  rcases List.mem_append.1 hi with hi | hi
  · exact ha i hi
  · exact hb i hi

def noMeta (sh : List (Nat × Bool)) : Bool := sh.all (fun e => e.1 != fMetadata)

theorem noMeta_bits {is : List MatchItem} {k : Nat} (hm : noMeta (shape is) = true) :
    ∀ i ∈ is, i.field = fMetadata → ∀ m, i.mask = some m → Bits m k := by
  intro i hi e
  have := List.all_eq_true.1 hm _ (mem_shape hi)
  simp [e] at this

/-- The checks of a match that need no values. -/
def good (d : Decl) (sh : List (Nat × Bool)) : Bool := shapeOk d sh && distinct sh && plain sh && noMeta sh

theorem law_plain {t : Tbl} (ht : Pipeline.included s.conf t = true) {T : Table} (e : T.id = idOf s.conf t)
    {is : List MatchItem} {prio : Nat} {inst : List Inst} {hard idle : Nat} (hp : prio ≠ 0)
    (hg : good (s.decl t) (shape is) = true)
    (hi : InstsOk h (s.decl t) (nextIds s.conf t) eg inst) : MsgLaw h s eg (T.flowadd is prio inst hard idle) := by
  unfold good at hg
  simp only [Bool.and_eq_true] at hg
  obtain ⟨⟨⟨h1, h2⟩, h3⟩, h4⟩ := hg
  exact law_add ht e hp h1 h2 (plain_wf h3) (noMeta_bits h4) hi

/-- A deletion. -/
theorem law_del {t : Tbl} (ht : Pipeline.included s.conf t = true) {T : Table} (e : T.id = idOf s.conf t)
    {is : List MatchItem} {prio : Nat} {out : Option Nat} {strict : Bool}
    (hk : (known (s.decl t) (shape is) && distinct (shape is)) = true) : MsgLaw h s eg (T.flowdel is prio out strict) := by
  obtain ⟨x, h1, rfl, h3⟩ := table_of ht
  rw [Bool.and_eq_true] at hk
  refine Or.inr ⟨x, h1, ?_, Or.inr (Or.inr ⟨?_, hk.1, hk.2, rfl⟩)⟩
  · show T.id = x.id
    rw [e, h3]
  · show ¬ ((if strict then FlowCmd.deleteStrict else .delete) = .add ∨ (if strict then FlowCmd.deleteStrict else .delete) = .modifyStrict)
    cases strict <;> decide

theorem laws_append {a b : List OfMsg} (ha : ∀ m ∈ a, MsgLaw h s eg m) (hb : ∀ m ∈ b, MsgLaw h s eg m) :
    ∀ m ∈ a ++ b, MsgLaw h s eg m := by
  intro m hm
  rcases List.mem_append.1 hm with hm | hm
  · exact ha m hm
  · exact hb m hm

theorem laws_flat {α : Type} {l : List α} {f : α → List OfMsg} (hf : ∀ x ∈ l, ∀ m ∈ f x, MsgLaw h s eg m) :
    ∀ m ∈ l.flatMap f, MsgLaw h s eg m := by
  intro m hm
  obtain ⟨x, hx, hm⟩ := List.mem_flatMap.1 hm
  exact hf x hx m hm

theorem laws_map {α : Type} {l : List α} {f : α → OfMsg} (hf : ∀ x ∈ l, MsgLaw h s eg (f x)) :
    ∀ m ∈ l.map f, MsgLaw h s eg m := by
  intro m hm
  obtain ⟨x, hx, rfl⟩ := List.mem_map.1 hm
  exact hf x hx

theorem laws_nil : ∀ m ∈ ([] : List OfMsg), MsgLaw h s eg m := fun _ hm => absurd hm List.not_mem_nil

theorem laws_one {a : OfMsg} (ha : MsgLaw h s eg a) : ∀ m ∈ [a], MsgLaw h s eg m := by
  intro m hm
  cases List.mem_singleton.1 hm
  exact ha

theorem laws_cons {a : OfMsg} {l : List OfMsg} (ha : MsgLaw h s eg a) (hl : ∀ m ∈ l, MsgLaw h s eg m) :
    ∀ m ∈ a :: l, MsgLaw h s eg m := by
  intro m hm
  rcases List.mem_cons.1 hm with rfl | hm
  · exact ha
  · exact hl m hm

theorem laws_ite {p : Prop} [Decidable p] {a b : List OfMsg} (ha : p → ∀ m ∈ a, MsgLaw h s eg m)
    (hb : ¬ p → ∀ m ∈ b, MsgLaw h s eg m) : ∀ m ∈ (if p then a else b), MsgLaw h s eg m := by
  by_cases hp : p
  · rw [if_pos hp]; exact ha hp
  · rw [if_neg hp]; exact hb hp

end

/-! ## The declarations of the tables that are not ACL tables -/

/-- A setup with nothing but what declarations depend on. -/
def std (e x r : Bool) : Setup where
  conf := { egress := e }
  externals := x
  restricted := r

/-- No ACL table is declared. -/
def Setup.NoAcl (s : Setup) (t : Tbl) : Prop := s.acl t = none

theorem decl_std {s : Setup} {t : Tbl} (ha : s.NoAcl t) :
    s.decl t = (std s.conf.egressPipeline s.externals s.restricted).decl t := by
  have ha : s.acl t = none := ha
  unfold Setup.decl noMetadata withExternal withRestricted
  rw [ha]
  have e : (std s.conf.egressPipeline s.externals s.restricted).conf.egressPipeline = s.conf.egressPipeline := by
    show (s.conf.egressPipeline || false) = _
    rw [Bool.or_false]
  rw [e]
  rfl

theorem good_std {s : Setup} {t : Tbl} (ha : s.NoAcl t) (sh : List (Nat × Bool))
    (hg : ∀ e x r, good ((std e x r).decl t) sh = true) {is : List MatchItem} (hs : shape is = sh) :
    good (s.decl t) (shape is) = true := by
  rw [decl_std ha, hs]
  exact hg _ _ _

theorem known_std {s : Setup} {t : Tbl} (ha : s.NoAcl t) (sh : List (Nat × Bool))
    (hg : ∀ e x r, (known ((std e x r).decl t) sh && distinct sh) = true) {is : List MatchItem} (hs : shape is = sh) :
    (known (s.decl t) (shape is) && distinct (shape is)) = true := by
  rw [decl_std ha, hs]
  exact hg _ _ _

theorem output_std {s : Setup} {t : Tbl} (ha : s.NoAcl t) : (s.decl t).output = true := by
  rw [decl_std ha]
  have : ∀ e x r, ((std e x r).decl t).output = true := by cases t <;> decide
  exact this _ _ _

theorem outputs_ok {h : Hardware} {s : Setup} {t : Tbl} (ha : s.NoAcl t) {l : List Nat} :
    ∀ a ∈ l.map Action.output, actOk h (s.decl t) a = true := by
  intro a hm
  obtain ⟨n, _, rfl⟩ := List.mem_map.1 hm
  exact output_std ha

theorem acts_append {h : Hardware} {d : Decl} {a b : List Action} (ha : ∀ x ∈ a, actOk h d x = true)
    (hb : ∀ x ∈ b, actOk h d x = true) : ∀ x ∈ a ++ b, actOk h d x = true := by
  intro x hx
  rcases List.mem_append.1 hx with hx | hx
  · exact ha x hx
  · exact hb x hx

theorem acts_one {h : Hardware} {d : Decl} {a : Action} (ha : actOk h d a = true) : ∀ x ∈ [a], actOk h d x = true := by
  intro x hx
  cases List.mem_singleton.1 hx
  exact ha

theorem acts_nil {h : Hardware} {d : Decl} : ∀ x ∈ ([] : List Action), actOk h d x = true := fun _ hx => absurd hx List.not_mem_nil

theorem pcp_ok {h : Hardware} {s : Setup} {t : Tbl} (ha : s.NoAcl t) (hx : s.externals = true)
    (ht : t = .vlan ∨ t = .ethDst ∨ t = .flood) (v : Nat) : actOk h (s.decl t) (.setField fVlanPcp v) = true := by
  rw [decl_std ha, hx]
  have : ∀ e r, ((std e true r).decl t).setFields.contains fVlanPcp = true := by
    rcases ht with rfl | rfl | rfl <;> decide
  exact this _ _

theorem vlan_bit (vid : Nat) : (vidPresent vid).testBit 12 = true := by
  unfold vidPresent vidPresentBit
  rw [Nat.testBit_or]
  have : (0x1000 : Nat).testBit 12 = true := by decide
  rw [this, Bool.or_true]

/-! ## The configuration -/

/-- What `DP.finalize_config` ensures, or is asked for: no classification table; priorities that are not 0. -/
structure CfgOk (c : Cfg) : Prop where
  restricted : c.restrictedBcast = true → c.ports.any (fun p => p.restricted) = true
  classification : c.useClassification = false
  high : c.dpHigh ≠ 0
  highest : c.dpHighest ≠ 0

theorem noAcl {c : Cfg} {t : Tbl} : (setup c).NoAcl t := rfl

section
variable {hw : Hardware} {c : Cfg}

theorem inc_vlan : Pipeline.included (setup c).conf .vlan = true := rfl
theorem inc_src : Pipeline.included (setup c).conf .ethSrc = true := rfl
theorem inc_dst : Pipeline.included (setup c).conf .ethDst = true := rfl
theorem inc_flood : Pipeline.included (setup c).conf .flood = true := rfl

theorem class_src (ok : CfgOk c) : c.classTable.id = idOf (setup c).conf .ethSrc := by
  show idOf c.conf (Pipeline.classTable c.conf) = _
  have : c.conf.classification = false := ok.classification
  unfold Pipeline.classTable
  rw [this]
  rfl

/-- The egress pipeline. -/
abbrev egOf (c : Cfg) : Bool := (setup c).conf.egressPipeline

abbrev Law (hw : Hardware) (c : Cfg) (m : OfMsg) : Prop := MsgLaw hw (setup c) (egOf c) m

theorem filter_law (ok : CfgOk c) {is : List MatchItem} {off : Nat} (sh : List (Nat × Bool))
    (hg : ∀ e x r, good ((std e x r).decl .ethSrc) sh = true) (hs : shape is = sh) : Law hw c (c.filterPackets is off) :=
  law_plain inc_src (class_src ok) (by unfold filterPriority; omega) (good_std noAcl sh hg hs) insts_nil

theorem pipelineInit_law (ok : CfgOk c) : ∀ m ∈ c.pipelineInit, Law hw c m := by
  unfold Cfg.pipelineInit
  refine laws_append (laws_ite (fun _ => laws_one ?_) (fun _ => laws_nil)) (laws_one ?_)
  · exact filter_law ok [(fEthSrc, false)] (by decide) rfl
  · exact filter_law ok [(fEthType, false)] (by decide) rfl

theorem default_law {m : OfMsg} {s : Setup} {eg : Bool} {t : Pipeline.TableConfig} (ht : t ∈ Pipeline.tables s.conf)
    (hm : Pipeline.defaultFlow s.conf t = some m) : MsgLaw hw s eg m := by
  obtain ⟨x, hx⟩ := Pipeline.exists_table (Pipeline.mem_tables ht).1
  have e := Pipeline.names_inj (Pipeline.table_mem hx).1 ht (Pipeline.table_mem hx).2
  rw [e] at hx
  unfold Pipeline.defaultFlow at hm
  cases hmi : t.miss with
  | none =>
    rw [hmi] at hm
    cases hm
    exact Or.inr ⟨t, hx, rfl, Or.inr (Or.inl ⟨Or.inl rfl, rfl, rfl, Or.inl ⟨hmi, rfl⟩⟩)⟩
  | some k =>
    rw [hmi] at hm
    obtain ⟨i, hi, rfl⟩ := Option.map_eq_some_iff.1 hm
    unfold Pipeline.gotoMiss at hi
    rw [hx] at hi
    simp only [Option.bind_some] at hi
    obtain ⟨d, hd, hi⟩ := Option.bind_eq_some_iff.1 hi
    split at hi
    · cases hi
      refine Or.inr ⟨t, hx, rfl, Or.inr (Or.inl ⟨Or.inl rfl, rfl, rfl, Or.inr ⟨k, hmi, ?_⟩⟩)⟩
      show [Inst.goto d.id] = _
      simp [idOf, hd]
    · rename_i hq
      exact absurd hmi hq

theorem all_law {s : Setup} {eg : Bool} : MsgLaw hw s eg ((⟨tableAll, 0⟩ : Table).flowdel []) := Or.inl ⟨rfl, rfl, rfl, rfl⟩

theorem defaults_law : ∀ m ∈ c.defaults, Law hw c m := by
  unfold Cfg.defaults
  refine laws_append (laws_append (laws_one all_law) (laws_ite (fun _ => laws_one trivial) (fun _ => laws_nil))) (laws_flat ?_)
  intro t ht m hm
  have hm : Pipeline.defaultFlow c.conf t = some m := by simpa using hm
  exact default_law (s := setup c) ht hm

/-! ## Flooding -/

theorem outputs_sub {as : List Action} {a : Action} (h : a ∈ (Actions.outputNonOutput as).1) : a ∈ as := by
  have gen : ∀ (l : List Action) (st : Actions.Dedup), a ∈ (l.foldl Actions.dedupStep st).acts → a ∈ st.acts ∨ a ∈ l := by
    intro l
    induction l with
    | nil => intro st h; exact Or.inl h
    | cons x l ih =>
      intro st h
      rcases ih _ h with h | h
      · have : a ∈ st.acts ∨ a = x := by
          unfold Actions.dedupStep at h
          split at h
          · split_ifs at h
            · exact Or.inl h
            · simpa using h
          · split_ifs at h
            · exact Or.inl h
            · simpa using h
        rcases this with h | h
        · exact Or.inl h
        · exact Or.inr (by simp [h])
      · exact Or.inr (List.mem_cons_of_mem _ h)
  rcases gen as {} h with h | h
  · cases h
  · exact h

/-- The members of the VLAN that are external are ports of the switch. -/
theorem externals_of {d : Nat → Dyn} {v : LVlan} (h : (c.fvlan d v).externals ≠ []) : c.hasExternals = true := by
  obtain ⟨q, hq⟩ := List.exists_mem_of_ne_nil _ h
  obtain ⟨hq, he⟩ := List.mem_filter.1 hq
  have mem : ∀ {l : List LPort}, q ∈ l.map (L2.fport d) → (∀ p ∈ l, p ∈ c.ports) → c.hasExternals = true := by
    intro l hl hsub
    obtain ⟨p, hp, rfl⟩ := List.mem_map.1 hl
    exact List.any_eq_true.2 ⟨p, hsub p hp, he⟩
  have hq : q ∈ ((c.ports.filter (fun p => p.tagged.contains v.vid)).map (L2.fport d)
    ++ (c.ports.filter (fun p => p.native == some v.vid)).map (L2.fport d)) ++ [] := hq
  rw [List.append_nil] at hq
  rcases List.mem_append.1 hq with hq | hq
  · exact mem hq (fun p hp => (List.mem_filter.1 hp).1)
  · exact mem hq (fun p hp => (List.mem_filter.1 hp).1)

theorem ruleActs_ok {d : Nat → Dyn} {v : LVlan} {eu ae er : Bool} {i : Option Flood.FPort} :
    ∀ a ∈ (c.fvlan d v).ruleActs eu i ae er, actOk hw ((setup c).decl .flood) a = true := by
  have loc : ∀ a ∈ (c.fvlan d v).localActs eu i ae er, actOk hw ((setup c).decl .flood) a = true := by
    unfold Flood.FVlan.localActs Flood.floodOutputs Flood.floodUntagged Flood.floodTagged Actions.dedupeOutputs
    refine acts_append (outputs_ok noAcl) ?_
    intro a ha
    simp only at ha
    split_ifs at ha
    · cases ha
    · rcases List.mem_cons.1 ha with rfl | ha
      · exact output_std noAcl
      · exact outputs_ok noAcl a ha
  unfold Flood.FVlan.ruleActs
  refine acts_append ?_ loc
  by_cases hx : (c.fvlan d v).externals ≠ [] ∧ (c.fvlan d v).taggedFlood eu ≠ []
  · rw [if_pos hx]
    exact acts_one (pcp_ok noAcl (externals_of hx.1) (Or.inr (Or.inr rfl)) _)
  · rw [if_neg hx]
    exact acts_nil

theorem portActs_ok {d : Nat → Dyn} {v : LVlan} {eu ae er : Bool} {p : Flood.FPort} :
    ∀ a ∈ ((c.fvlan d v).portActs eu p ae er).1, actOk hw ((setup c).decl .flood) a = true := by
  intro a ha
  unfold Flood.FVlan.portActs at ha
  simp only at ha
  split_ifs at ha
  · cases ha
  · exact ruleActs_ok a (outputs_sub ha)
  · cases ha

/-- The match of a row. -/
theorem row_good (ok : CfgOk c) {r : Flood.Row} (hr : r ∈ c.flood.rows) (vid : Nat) (ip : Option Nat) :
    good ((setup c).decl .flood) (shape (r.items vid ip)) = true := by
  have sh : shape (r.items vid ip) = (if ip.isSome then [(fInPort, false)] else [])
      ++ (if r.dst.isSome then [(fEthDst, true)] else []) ++ (if r.ethType.isSome then [(fEthType, false)] else []) ++ [(fVlanVid, false)] := by
    obtain ⟨u, et, ds⟩ := r
    cases ip <;> cases et <;> cases ds <;> rfl
  have two : r.ethType = none ∨ (setup c).restricted = true := by
    by_cases hb : c.restrictedBcast = true
    · exact Or.inr (ok.restricted hb)
    · left
      have : c.flood.rows = Flood.floodDsts := by
        unfold Flood.FCfg.rows
        exact if_neg hb
      rw [this] at hr
      clear sh
      revert r
      decide
  rw [sh, decl_std noAcl]
  rcases two with e | e
  · rw [e]
    generalize (setup c).conf.egressPipeline = b1
    generalize (setup c).externals = b2
    generalize (setup c).restricted = b3
    generalize ip.isSome = b4
    generalize r.dst.isSome = b5
    revert b1 b2 b3 b4 b5
    decide
  · rw [e]
    generalize (setup c).conf.egressPipeline = b1
    generalize (setup c).externals = b2
    generalize r.ethType.isSome = b3
    generalize ip.isSome = b4
    generalize r.dst.isSome = b5
    revert b1 b2 b3 b4 b5
    decide

theorem good_known {d : Decl} {sh : List (Nat × Bool)} (h : good d sh = true) : (known d sh && distinct sh) = true := by
  unfold good shapeOk at h
  simp only [Bool.and_eq_true] at h
  rw [Bool.and_eq_true]
  refine ⟨?_, h.1.1.2⟩
  unfold known
  rw [List.all_eq_true]
  intro e he
  obtain ⟨x, hx, q⟩ := List.any_eq_true.1 (List.all_eq_true.1 h.1.1.1.1 e he)
  exact List.any_eq_true.2 ⟨x, hx, by simp only [Bool.and_eq_true] at q; exact q.1⟩

theorem prio_ne (r : Flood.Row) : r.priority ≠ 0 := by
  unfold Flood.Row.priority Flood.maskPriority matchPriority
  omega

theorem floodRule_law {cmd : FlowCmd} (hc : cmd = .add ∨ cmd = .modifyStrict) {is : List MatchItem} {prio : Nat} {as : List Action}
    (hp : prio ≠ 0) (hg : good ((setup c).decl .flood) (shape is) = true)
    (ha : ∀ a ∈ as, actOk hw ((setup c).decl .flood) a = true) : Law hw c (Flood.floodRule c.flood cmd is prio as) := by
  unfold good at hg
  simp only [Bool.and_eq_true] at hg
  obtain ⟨⟨⟨h1, h2⟩, h3⟩, h4⟩ := hg
  exact law_rule inc_flood rfl ⟨hc, hp, h1, h2, plain_wf h3, noMeta_bits h4, trim_ok (insts_apply ha)⟩

theorem floodRules_law (ok : CfgOk c) (hg : c.groupTable = true → hw.groups = true) {d : Nat → Dyn} {v : LVlan} {cold mo : Bool} :
    ∀ m ∈ Flood.floodRules c.flood (c.fvlan d v) cold mo, Law hw c m := by
  have cmd : (if mo then FlowCmd.modifyStrict else .add) = .add ∨ (if mo then FlowCmd.modifyStrict else .add) = .modifyStrict := by
    cases mo
    · exact Or.inl rfl
    · exact Or.inr rfl
  unfold Flood.floodRules
  generalize (if mo then FlowCmd.modifyStrict else .add) = k at cmd
  refine laws_append (laws_flat ?_) (laws_ite ?_ (fun _ => laws_nil))
  · intro r hr
    have hr := (List.mem_filter.1 hr).1
    unfold Flood.maskRules
    refine laws_ite (fun _ => laws_flat ?_) (fun _ => laws_append (laws_ite (fun _ => laws_nil) (fun _ => laws_one ?_)) (laws_flat ?_))
    · intro q _
      unfold Flood.combinatorialRule
      exact laws_ite (fun _ => laws_nil) (fun _ => laws_one (floodRule_law cmd (by omega) (row_good ok hr _ _) portActs_ok))
    · exact floodRule_law cmd (prio_ne r) (row_good ok hr _ _) ruleActs_ok
    · intro q _
      unfold Flood.besideVlan
      refine laws_ite (fun _ => laws_nil) (fun _ => laws_ite (fun _ => laws_ite (fun _ => laws_nil) (fun _ => laws_one ?_)) (fun _ => laws_one ?_))
      · exact law_del inc_flood rfl (good_known (row_good ok hr _ _))
      · exact floodRule_law cmd (by omega) (row_good ok hr _ _) portActs_ok
  · intro hgr
    unfold Flood.groupRules Flood.groupAdd
    refine laws_append (laws_append (laws_cons trivial (laws_one trivial)) (laws_cons trivial (laws_one trivial))) (laws_map ?_)
    intro r hr
    have hr := (List.mem_filter.1 hr).1
    refine floodRule_law cmd (prio_ne r) (row_good ok hr _ _) (acts_one ?_)
    show (((setup c).decl .flood).output && hw.groups) = true
    rw [output_std noAcl, hg hgr]
    rfl

theorem floodInit_law : ∀ m ∈ Flood.initialise c.flood, Law hw c m := by
  refine laws_map (fun x _ => law_plain inc_flood rfl ?_ (good_std noAcl [(fEthDst, true)] (by decide) rfl) insts_nil)
  unfold Flood.maskPriority matchPriority
  omega

/-! ## VLANs and ports -/

theorem unknown_law {vid : Nat} {m : OfMsg} (h : Pipeline.unknownFlow c.conf vid = some m) : Law hw c m := by
  unfold Pipeline.unknownFlow at h
  obtain ⟨i, hi, rfl⟩ := Option.map_eq_some_iff.1 h
  obtain ⟨e, hn⟩ := goto_next hi
  rw [e]
  exact law_plain inc_src rfl (by decide) (good_std noAcl [(fVlanVid, false)] (by decide) rfl)
    (insts_append (a := [.apply [.output portController]]) (insts_apply (acts_one (output_std noAcl))) (insts_goto hn))

theorem addVlan_law (ok : CfgOk c) (hg : c.groupTable = true → hw.groups = true) {d : Nat → Dyn} {cold : Bool} {v : LVlan} :
    ∀ m ∈ c.addVlan d cold v, Law hw c m := by
  unfold Cfg.addVlan
  refine laws_append (laws_append (laws_ite (fun _ => laws_one ?_) (fun _ => laws_nil)) ?_) (floodRules_law ok hg)
  · exact filter_law ok [(fEthSrc, false)] (by decide) rfl
  · intro m hm
    exact unknown_law (vid := v.vid) (by simpa using hm)

theorem vlanRule_law {p : LPort} {push : Bool} {vid : Nat} : ∀ m ∈ c.vlanRule p push vid, Law hw c m := by
  intro m hm
  have hm : Pipeline.portVlanFlow c.conf (c.portVlan p push vid) = some m := by simpa [Cfg.vlanRule] using hm
  unfold Pipeline.portVlanFlow at hm
  obtain ⟨i, hi, rfl⟩ := Option.map_eq_some_iff.1 hm
  obtain ⟨e, hn⟩ := goto_next hi
  rw [e]
  refine law_plain inc_vlan rfl (by decide) (good_std noAcl [(fInPort, false), (fVlanVid, false)] (by decide) rfl)
    (insts_append (a := [.apply _]) (insts_apply (acts_append (acts_append (outputs_ok noAcl) ?_) ?_)) (insts_goto hn))
  · have vv : ((setup c).decl .vlan).setFields.contains fVlanVid = true := by
      rw [decl_std noAcl]
      exact (by decide : ∀ e x r, ((std e x r).decl .vlan).setFields.contains fVlanVid = true) _ _ _
    intro a ha
    split_ifs at ha
    · rcases List.mem_cons.1 ha with rfl | ha
      · exact vv
      · cases List.mem_singleton.1 ha
        exact vv
    · cases ha
  · intro a ha
    obtain ⟨n, hn, rfl⟩ := List.mem_map.1 ha
    have hn : n ∈ (c.extFlag p).toList := hn
    by_cases hx : c.hasExternals = true
    · exact pcp_ok noAcl hx (Or.inl rfl) _
    · have : c.extFlag p = none := if_neg hx
      rw [this] at hn
      cases hn

theorem ctrl_law (ok : CfgOk c) {is : List MatchItem} (sh : List (Nat × Bool))
    (hg : ∀ e x r, good ((std e x r).decl .vlan) sh = true) (hs : shape is = sh) :
    Law hw c (L2.Table.toController (c.table .vlan) is c.dpHighest) :=
  law_plain inc_vlan rfl ok.highest (good_std noAcl sh hg hs) (insts_apply (acts_one (output_std noAcl)))

theorem vdel_law {is : List MatchItem} {prio : Nat} {out : Option Nat} {st : Bool} (sh : List (Nat × Bool))
    (hg : ∀ e x r, (known ((std e x r).decl .vlan) sh && distinct sh) = true) (hs : shape is = sh) :
    Law hw c ((c.table .vlan).flowdel is prio out st) :=
  law_del inc_vlan rfl (known_std noAcl sh hg hs)

theorem switchAdd_law (ok : CfgOk c) {p : LPort} : ∀ m ∈ c.switchAdd p, Law hw c m := by
  unfold Cfg.switchAdd
  refine laws_ite (fun _ => laws_nil) (fun _ => laws_append (laws_append (laws_flat (fun _ _ => vlanRule_law)) ?_)
    (laws_ite (fun _ => laws_one (ctrl_law ok [(fInPort, false), (fEthDst, false), (fEthType, false)] (by decide) rfl)) (fun _ => laws_nil)))
  unfold Cfg.untaggedRule
  cases p.native with
  | some vid => exact vlanRule_law
  | none =>
    exact laws_ite (fun _ => laws_one (law_plain inc_vlan rfl (by decide)
      (good_std noAcl [(fInPort, false), (fVlanVid, false)] (by decide) rfl) insts_nil)) (fun _ => laws_nil)

theorem hairpin_of {t : Table} (h : c.learn.hairpin = some t) :
    Pipeline.included (setup c).conf .hairpin = true ∧ t.id = idOf (setup c).conf .hairpin := by
  have h : c.hairpinTable = some t := h
  unfold Cfg.hairpinTable at h
  split_ifs at h with hp
  cases h
  exact ⟨hp, rfl⟩

theorem delHost_law {n : Nat} : ∀ m ∈ Learn.delHostFlows c.learn n, Law hw c m := by
  unfold Learn.delHostFlows
  refine laws_append (laws_cons (law_del inc_src rfl (known_std noAcl [(fInPort, false)] (by decide) rfl))
    (laws_one (law_del inc_dst rfl (known_std noAcl [] (by decide) rfl)))) ?_
  cases hh : c.learn.hairpin with
  | none => exact laws_nil
  | some t => exact laws_one (law_del (hairpin_of hh).1 (hairpin_of hh).2 (known_std noAcl [] (by decide) rfl))

theorem switchDel_law {p : LPort} : ∀ m ∈ c.switchDel p, Law hw c m := by
  unfold Cfg.switchDel
  refine laws_ite (fun _ => laws_nil) (fun _ => laws_append (laws_append (laws_append delHost_law ?_) (laws_map ?_)) ?_)
  · exact laws_ite (fun _ => laws_one (vdel_law [(fInPort, false), (fVlanVid, false)] (by decide) rfl)) (fun _ => laws_nil)
  · exact fun _ _ => vdel_law [(fInPort, false), (fVlanVid, false)] (by decide) rfl
  · exact laws_ite (fun _ => laws_one (vdel_law [(fInPort, false), (fEthDst, false), (fEthType, false)] (by decide) rfl)) (fun _ => laws_nil)

theorem eg_true (h : c.egressPipeline = true) : egOf c = true := by
  show (c.egressPipeline || false) = true
  rw [h]
  rfl

theorem inc_egress (h : c.egressPipeline = true) : Pipeline.included (setup c).conf .egress = true := eg_true h

theorem egressRule_law (ok : CfgOk c) (he : c.egressPipeline = true) {p : LPort} {pop : Bool} {vid : Nat} :
    Law hw c (c.egressRule p pop vid) := by
  have de : (setup c).decl .egress = (std true (setup c).externals (setup c).restricted).decl .egress := by
    have q : (setup c).conf.egressPipeline = true := eg_true he
    rw [decl_std noAcl, q]
  refine law_add (inc_egress he) rfl ok.high ?_ rfl (plain_wf rfl) ?_ ?_
  · rw [de]
    show shapeOk _ [(fMetadata, true), (fVlanVid, false)] = true
    exact (by decide : ∀ x r, shapeOk ((std true x r).decl .egress) [(fMetadata, true), (fVlanVid, false)] = true) _ _
  · intro i hi hf m hm
    rw [de]
    have : ((std true (setup c).externals (setup c).restricted).decl .egress).metadataMatch = egressMask :=
      (by decide : ∀ x r, ((std true x r).decl .egress).metadataMatch = egressMask) _ _
    rw [this]
    rcases List.mem_cons.1 hi with rfl | hi
    · cases hm
      exact fun _ h => h
    · cases List.mem_singleton.1 hi
      cases hf
  · refine insts_apply (acts_append (acts_append (outputs_ok noAcl) ?_) (acts_one (output_std noAcl)))
    intro a ha
    split_ifs at ha
    · cases List.mem_singleton.1 ha
      exact output_std noAcl
    · cases ha

theorem egressAdd_law (ok : CfgOk c) {p : LPort} : ∀ m ∈ c.egressAdd p, Law hw c m :=
  laws_ite (fun he => laws_append (laws_map (fun _ _ => egressRule_law ok he)) (laws_map (fun _ _ => egressRule_law ok he))) (fun _ => laws_nil)

theorem egressDel_law {p : LPort} : ∀ m ∈ c.egressDel p, Law hw c m :=
  laws_ite (fun he => laws_one (law_del (inc_egress he) rfl (known_std noAcl [(fMetadata, true)] (by decide) rfl))) (fun _ => laws_nil)

theorem portAdd_law (ok : CfgOk c) {p : LPort} : ∀ m ∈ c.portAdd p, Law hw c m := by
  unfold Cfg.portAdd Cfg.lldpAdd Cfg.outOnlyAdd
  refine laws_append (laws_append (laws_append (egressAdd_law ok) (switchAdd_law ok)) ?_) ?_
  · exact laws_ite (fun _ => laws_one (ctrl_law ok [(fInPort, false), (fEthDst, true), (fEthType, false)] (by decide) rfl)) (fun _ => laws_nil)
  · exact laws_ite (fun _ => laws_one (law_plain inc_vlan rfl ok.highest (good_std noAcl [(fInPort, false)] (by decide) rfl) insts_nil)) (fun _ => laws_nil)

theorem portDel_law {p : LPort} : ∀ m ∈ c.portDel p, Law hw c m := by
  unfold Cfg.portDel Cfg.lldpDel Cfg.outOnlyDel
  refine laws_append (laws_append (laws_append egressDel_law switchDel_law) ?_) ?_
  · exact laws_ite (fun _ => laws_one (vdel_law [(fInPort, false), (fEthDst, true), (fEthType, false)] (by decide) rfl)) (fun _ => laws_nil)
  · exact laws_ite (fun _ => laws_one (vdel_law [(fInPort, false)] (by decide) rfl)) (fun _ => laws_nil)

theorem lag_law (ok : CfgOk c) (hg : c.groupTable = true → hw.groups = true) {d : Nat → Dyn} {cold : Bool} {p : LPort} :
    ∀ m ∈ c.lagMsgs d cold p, Law hw c m := by
  unfold Cfg.lagMsgs
  refine laws_ite (fun _ => laws_cons ?_ (laws_flat (fun _ _ => addVlan_law ok hg))) (fun _ => laws_cons ?_ (laws_ite (fun _ => laws_nil)
    (fun _ => laws_append (laws_append switchDel_law (switchAdd_law ok)) (laws_flat (fun _ _ => addVlan_law ok hg)))))
  · exact vdel_law [(fInPort, false)] (by decide) rfl
  · exact law_plain inc_vlan rfl ok.high (good_std noAcl [(fInPort, false)] (by decide) rfl) insts_nil

theorem change_law (ok : CfgOk c) (hg : c.groupTable = true → hw.groups = true) {d : Nat → Dyn} {cold : Bool} {p : LPort}
    {l : L2.LagChange} : ∀ m ∈ c.changeMsgs d cold p l, Law hw c m := by
  cases l with
  | none => exact laws_nil
  | some x => exact lag_law ok hg

/-! ## Learning -/

theorem output_law {p vid : Nat} {hp : Bool} {ext : Option Bool} {t : Tbl} (ht : (setup c).NoAcl t)
    (hx : ext ≠ none → c.hasExternals = true ∧ (t = .vlan ∨ t = .ethDst ∨ t = .flood)) :
    InstsOk hw ((setup c).decl t) (nextIds (setup c).conf t) (egOf c) (Learn.pipelineOutput c.learn p vid hp ext) := by
  unfold Learn.pipelineOutput
  by_cases he : c.egressPipeline = true
  · have : c.learn.egress = some (idOf c.conf (Pipeline.outputTo c.conf)) := if_pos he
    rw [this]
    intro i hi
    rcases List.mem_cons.1 hi with rfl | hi
    · exact Or.inl (eg_true he)
    · cases List.mem_singleton.1 hi
      exact Or.inl (eg_true he)
  · have : c.learn.egress = none := if_neg he
    rw [this]
    refine insts_apply ?_
    have out : actOk hw ((setup c).decl t) (if hp then Action.output portInPort else .output p) = true := by
      cases hp <;> exact output_std ht
    unfold Learn.outputPort
    simp only
    generalize (if hp = true then Action.output portInPort else .output p) = o at out
    split_ifs
    · exact acts_append (acts_append (acts_one (output_std ht)) (outputs_ok ht)) (acts_one out)
    · refine acts_append (acts_append (outputs_ok ht) ?_) (acts_one out)
      cases ext with
      | none => exact acts_nil
      | some b =>
        obtain ⟨h1, h2⟩ := hx (by simp)
        cases b
        · exact acts_one (pcp_ok ht h1 h2 _)
        · exact acts_one (pcp_ok ht h1 h2 _)

theorem deleteHost_law {mac vid : Nat} : ∀ m ∈ Learn.deleteHost c.learn mac vid, Law hw c m := by
  unfold Learn.deleteHost
  refine laws_append (laws_cons (law_del inc_src rfl (known_std noAcl [(fEthSrc, false), (fVlanVid, false)] (by decide) rfl))
    (laws_one (law_del inc_dst rfl (known_std noAcl [(fEthDst, false), (fVlanVid, false)] (by decide) rfl)))) ?_
  cases hh : c.learn.hairpin with
  | none => exact laws_nil
  | some t =>
    exact laws_one (law_del (hairpin_of hh).1 (hairpin_of hh).2 (known_std noAcl [(fEthDst, false), (fVlanVid, false)] (by decide) rfl))

/-- The destination rules: with the external flag just when the table has that field. -/
theorem dst_law {p vid mac idle : Nat} {pcp : Option Nat} (hx : pcp.isSome = c.hasExternals) :
    Law hw c (c.learn.ethDst.flowadd (Learn.dstItems mac vid pcp) matchPriority (Learn.dstInst c.learn p vid) 0 idle) := by
  have sh : shape (Learn.dstItems mac vid pcp) = [(fEthDst, false), (fVlanVid, false)] ++ if pcp.isSome then [(fVlanPcp, false)] else [] := by
    cases pcp <;> rfl
  refine law_add inc_dst rfl (by decide) ?_ ?_ ?_ ?_ (output_law noAcl ?_)
  · rw [decl_std noAcl, sh]
    have : (setup c).externals = pcp.isSome := hx.symm
    rw [this]
    generalize (setup c).conf.egressPipeline = b1
    generalize pcp.isSome = b2
    generalize (setup c).restricted = b3
    revert b1 b2 b3
    decide
  · rw [sh]
    cases pcp <;> rfl
  · cases pcp with
    | none => exact plain_wf rfl
    | some q =>
      have v : (⟨fVlanVid, vidPresent vid, none⟩ : MatchItem) ∈ Learn.dstItems mac vid (some q) :=
        List.mem_append_left _ (List.mem_cons_of_mem _ List.mem_cons_self)
      have cases3 : ∀ i ∈ Learn.dstItems mac vid (some q), i.field = fEthDst ∨ i.field = fVlanVid ∨ i.field = fVlanPcp := by
        intro i hi
        have hi : i ∈ [iEthDst mac, iVlan vid, iPcp q] := hi
        simp only [List.mem_cons, List.not_mem_nil, or_false] at hi
        rcases hi with rfl | rfl | rfl
        · exact Or.inl rfl
        · exact Or.inr (Or.inl rfl)
        · exact Or.inr (Or.inr rfl)
      have no : ∀ {k : Nat}, k ≠ fEthDst → k ≠ fVlanVid → k ≠ fVlanPcp → ∀ {P : Prop}, ∀ i ∈ Learn.dstItems mac vid (some q), i.field = k → P := by
        intro k k1 k2 k3 P i hi e
        rcases cases3 i hi with h | h | h
        · exact absurd (e.symm.trans h) k1
        · exact absurd (e.symm.trans h) k2
        · exact absurd (e.symm.trans h) k3
      exact ⟨no (by decide) (by decide) (by decide), no (by decide) (by decide) (by decide), no (by decide) (by decide) (by decide),
        no (by decide) (by decide) (by decide), no (by decide) (by decide) (by decide), fun _ _ _ => ⟨_, v, rfl, vlan_bit vid⟩⟩
  · refine noMeta_bits ?_
    rw [sh]
    cases pcp <;> rfl
  · intro hne
    by_cases hq : c.hasExternals = true
    · exact ⟨hq, Or.inr (Or.inl rfl)⟩
    · have : (if c.learn.hasExternals = true then some true else none) = none := if_neg hq
      exact absurd this hne

theorem wired : Pipeline.LearnWired c.conf c.learn where
  src := rfl
  dst := rfl
  hairpin := by
    show (c.hairpinTable).map (·.id) = _
    unfold Cfg.hairpinTable
    by_cases hp : c.hasHairpin = true
    · rw [if_pos hp]
      obtain ⟨x, hx⟩ := Pipeline.exists_table (c := c.conf) (n := .hairpin) hp
      rw [hx]
      show some (idOf c.conf .hairpin) = some x.id
      simp [idOf, hx]
    · rw [if_neg hp]
      cases hq : Pipeline.table c.conf .hairpin with
      | none => rfl
      | some x => exact absurd ((Pipeline.table_some_iff c.conf .hairpin).1 (by rw [hq]; rfl)) hp
  egress := by
    show (if c.egressPipeline then _ else _) = if (c.egressPipeline || false) = true then _ else _
    rw [Bool.or_false]

theorem outputTable_next : Learn.outputTable c.learn ∈ nextIds (setup c).conf .ethSrc := by
  rw [Pipeline.outputTable_eq wired]
  have hi := Pipeline.out_included c.conf
  refine next_std rfl hi ?_
  rcases Pipeline.out_cases c.conf with e | e <;> rw [e] <;> decide

theorem learnFlows_law {p : HostCache.Port} {vid mac : Nat} {del ref : Bool} {tmo : Nat × Nat × Nat} :
    ∀ m ∈ Learn.learnFlows c.learn p vid mac del ref tmo, Law hw c m := by
  unfold Learn.learnFlows
  refine laws_append (laws_append (laws_ite (fun _ => deleteHost_law) (fun _ => laws_nil)) (laws_one ?_)) (laws_ite (fun _ => laws_nil)
    (fun _ => laws_append (laws_append (laws_one ?_) (laws_ite ?_ (fun _ => laws_nil))) (laws_ite ?_ (fun _ => laws_nil))))
  · exact law_plain inc_src rfl (by decide) (good_std noAcl [(fInPort, false), (fEthSrc, false), (fVlanVid, false)] (by decide) rfl)
      (insts_goto outputTable_next)
  · refine dst_law ?_
    show (if c.hasExternals = true then some pcpExt else none).isSome = _
    cases c.hasExternals <;> rfl
  · intro hx
    have hx : (c.hasExternals && !c.isExternal p.number) = true := hx
    rw [Bool.and_eq_true] at hx
    exact laws_one (dst_law hx.1.symm)
  · intro _
    cases hh : c.learn.hairpin with
    | none => exact laws_nil
    | some t =>
      exact laws_one (law_plain (hairpin_of hh).1 (hairpin_of hh).2 (by decide)
        (good_std noAcl [(fInPort, false), (fEthDst, false), (fVlanVid, false)] (by decide) rfl)
        (output_law noAcl (fun h => absurd rfl h)))

theorem tempBan_law {is : List MatchItem} (sh : List (Nat × Bool)) (hg : ∀ e x r, good ((std e x r).decl .ethSrc) sh = true)
    (hs : shape is = sh) : Law hw c (Learn.tempBan c.learn is) :=
  law_plain inc_src rfl (by decide) (good_std noAcl sh hg hs) insts_nil

theorem learnHost_law (ok : CfgOk c) {st : Learn.St} {now : Int} {p : HostCache.Port} {vid mac : Nat} {d : Bool} {cs : Option Int} :
    ∀ m ∈ (Learn.learnHostOnVlanPorts c.learn st now p vid mac d cs).msgs, Law hw c m := by
  intro m hm
  unfold Learn.learnHostOnVlanPorts at hm
  simp only at hm
  split at hm
  · next x hx =>
    unfold Learn.permCheck at hx
    split at hx
    · split at hx
      · cases hx
        simp only at hm
        split at hm
        · cases hm
        · cases List.mem_singleton.1 hm
          exact law_plain inc_src (class_src ok) (by decide) (good_std noAcl [(fInPort, false), (fEthSrc, false)] (by decide) rfl) insts_nil
      · cases hx
    · cases hx
  · split at hm
    · cases hm
    · split at hm
      · cases List.mem_singleton.1 hm
        exact tempBan_law [(fInPort, false)] (by decide) rfl
      · exact learnFlows_law m hm

theorem rcv_law (ok : CfgOk c) {st st' : Learn.St} {now : Int} {p : HostCache.Port} {vid mac : Nat} {ms : List OfMsg}
    (h : Learn.rcvPacket c.learn st now p vid mac = some (ms, st')) : ∀ m ∈ ms, Law hw c m := by
  unfold Learn.rcvPacket at h
  simp only at h
  split at h
  · cases h
    unfold Learn.banRules
    exact laws_ite (fun _ => laws_append (laws_ite (fun _ => laws_one (tempBan_law [(fInPort, false)] (by decide) rfl)) (fun _ => laws_nil))
      (laws_ite (fun _ => laws_one (tempBan_law [(fVlanVid, false)] (by decide) rfl)) (fun _ => laws_nil))) (fun _ => laws_nil)
  · unfold Learn.learnHost at h
    simp only at h
    split at h
    · obtain ⟨x, _, e⟩ := Option.map_eq_some_iff.1 h
      simp only [Prod.mk.injEq] at e
      rw [← e.1]
      exact learnHost_law ok
    · simp only [Option.some.injEq, Prod.mk.injEq] at h
      rw [← h.1]
      exact learnHost_law ok

theorem sweep_law {st st' : Learn.St} {now : Int} {vid : Nat} {ms : List OfMsg}
    (h : Learn.sweep c.learn st now vid = some (ms, st')) : ∀ m ∈ ms, Law hw c m := by
  unfold Learn.sweep at h
  obtain ⟨x, _, e⟩ := Option.map_eq_some_iff.1 h
  simp only [Prod.mk.injEq] at e
  rw [← e.1]
  exact laws_ite (fun _ => laws_nil) (fun _ => laws_flat (fun _ _ => deleteHost_law))

/-! ## All events -/

theorem react_law (ok : CfgOk c) (hg : c.groupTable = true → hw.groups = true) {st : L2.Ctl} {ev : L2.Ev} {ms : List OfMsg}
    {st' : L2.Ctl} (h : c.react st ev = some (ms, st')) : ∀ m ∈ ms, Law hw c m := by
  cases ev with
  | connect now up lag =>
    cases h
    unfold Cfg.connectMsgs Cfg.connectPort
    exact laws_append (laws_append (laws_append (laws_append defaults_law (pipelineInit_law ok)) floodInit_law)
      (laws_flat (fun _ _ => laws_ite (fun _ => laws_append (portAdd_law ok) (change_law ok hg)) (fun _ => laws_nil))))
      (laws_flat (fun _ _ => addVlan_law ok hg))
  | disconnect now lag =>
    obtain ⟨x, _, e⟩ := Option.map_eq_some_iff.1 h
    cases e
    exact laws_nil
  | packetIn now k =>
    unfold Cfg.react at h
    simp only at h
    split at h
    · obtain ⟨x, hx, e⟩ := Option.map_eq_some_iff.1 h
      cases e
      exact rcv_law ok hx
    · cases h
      exact laws_nil
  | expire now vid =>
    unfold Cfg.react at h
    simp only at h
    split at h
    · obtain ⟨x, hx, e⟩ := Option.map_eq_some_iff.1 h
      cases e
      exact sweep_law hx
    · cases h
      exact laws_nil
  | portUp now n lag =>
    unfold Cfg.react at h
    simp only at h
    split at h
    · cases h
      unfold Cfg.upMsgs
      exact laws_ite (fun _ => laws_append (laws_append (portAdd_law ok) (change_law ok hg)) (laws_flat (fun _ _ => addVlan_law ok hg))) (fun _ => laws_nil)
    · cases h
      exact laws_nil
  | portDown now n lag =>
    unfold Cfg.react at h
    simp only at h
    split at h
    · cases h
      unfold Cfg.downMsgs
      exact laws_append (laws_ite (fun _ => change_law ok hg) (fun _ => portDel_law)) (laws_flat (fun _ _ => floodRules_law ok hg))
    · cases h
      exact laws_nil
  | lag n sel act =>
    unfold Cfg.react at h
    simp only at h
    split at h
    · split at h
      · cases h
        exact lag_law ok hg
      · cases h
        exact laws_nil
    · cases h
      exact laws_nil
  | srcRemoved vid n m =>
    obtain ⟨x, hx, e⟩ := Option.map_eq_some_iff.1 h
    cases e
    unfold Learn.react at hx
    simp only at hx
    split at hx
    · obtain ⟨y, _, e⟩ := Option.map_eq_some_iff.1 hx
      cases e
      exact laws_nil
    · cases hx
      exact laws_nil
  | dstRemoved now vid m =>
    obtain ⟨x, hx, e⟩ := Option.map_eq_some_iff.1 h
    cases e
    unfold Learn.react at hx
    simp only at hx
    split at hx
    · cases hx
      unfold Learn.dstRuleExpire
      split
      · exact learnHost_law ok
      · exact laws_nil
    · cases hx
      exact laws_nil

theorem deleteMsgs_law (ok : CfgOk c) (hg : c.groupTable = true → hw.groups = true) {d : Nat → Dyn} {ns : List Nat}
    {lag : Nat → L2.LagChange} : ∀ m ∈ c.deleteMsgs d ns lag, Law hw c m := by
  unfold Cfg.deleteMsgs
  exact laws_append (laws_flat (fun _ _ => laws_ite (fun _ => change_law ok hg) (fun _ => portDel_law)))
    (laws_flat (fun _ _ => floodRules_law ok hg))

theorem addMsgs_law (ok : CfgOk c) (hg : c.groupTable = true → hw.groups = true) {d : Nat → Dyn} {ns : List Nat}
    {lag : Nat → L2.LagChange} : ∀ m ∈ c.addMsgs d ns lag, Law hw c m := by
  unfold Cfg.addMsgs
  exact laws_append (laws_flat (fun _ _ => laws_append (portAdd_law ok) (change_law ok hg))) (laws_flat (fun _ _ => addVlan_law ok hg))

theorem delVlan_law {v : LVlan} : ∀ m ∈ c.delVlan v, Law hw c m :=
  laws_cons (law_del inc_flood rfl (known_std noAcl [(fVlanVid, false)] (by decide) rfl))
    (laws_one (law_del inc_src rfl (known_std noAcl [(fVlanVid, false)] (by decide) rfl)))

end

end Faucet.Features
