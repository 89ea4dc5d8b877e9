import Verif.Features.Spec
import Verif.Pipeline.Sent
import Mathlib.Tactic.SplitIfs

/-!
# Rules by their shape

Whether a rule fits depends on the fields that it matches, not on their values.
-/

namespace Faucet.Features
open Faucet.OF
open Faucet.Pipeline (Tbl Conf)

/-- The fields of a match, and which are masked. -/
def shape (is : List MatchItem) : List (Nat × Bool) := is.map (fun i => (i.field, i.mask.isSome))

/-- All fields are declared. -/
def known (d : Decl) (sh : List (Nat × Bool)) : Bool := sh.all (fun e => d.matchTypes.any (fun x => x.1 == e.1))

/-- The match of a rule that is put into a table. -/
def shapeOk (d : Decl) (sh : List (Nat × Bool)) : Bool :=
  sh.all (fun e => d.matchTypes.any (fun x => x.1 == e.1 && (x.2 || !e.2)))
    && (!d.exact || d.matchTypes.all (fun x => sh.any (fun e => e.1 == x.1)))

def distinct : List (Nat × Bool) → Bool
  | [] => true
  | e :: l => l.all (fun x => x.1 != e.1) && distinct l

theorem distinct_nodup : ∀ {is : List MatchItem}, distinct (shape is) = true → (is.map (·.field)).Nodup
  | [], _ => List.nodup_nil
  | i :: is, h => by
    simp only [shape, List.map_cons, distinct, Bool.and_eq_true, List.all_eq_true] at h
    rw [List.map_cons, List.nodup_cons]
    refine ⟨?_, distinct_nodup h.2⟩
    intro hm
    obtain ⟨j, hj, e⟩ := List.mem_map.1 hm
    have := h.1 (j.field, j.mask.isSome) (List.mem_map.2 ⟨j, hj, rfl⟩)
    simp [e] at this

/-- No field with prerequisites. -/
def plain (sh : List (Nat × Bool)) : Bool :=
  sh.all (fun e => !([fIpv4Dst, fIpv6Dst, fArpTpa, fIpProto, fIcmpv6Type, fVlanPcp].contains e.1))

theorem plain_wf {is : List MatchItem} (h : plain (shape is) = true) : WellFormed is := by
  have key : ∀ i ∈ is, ∀ k ∈ [fIpv4Dst, fIpv6Dst, fArpTpa, fIpProto, fIcmpv6Type, fVlanPcp], i.field ≠ k := by
    intro i hi k hk e
    have := List.all_eq_true.1 h (i.field, i.mask.isSome) (List.mem_map.2 ⟨i, hi, rfl⟩)
    simp only [Bool.not_eq_true', List.contains_iff_mem, e] at this
    simp at this
    simp at hk
    omega
  exact ⟨fun i hi e => absurd e (key i hi _ (by simp)), fun i hi e => absurd e (key i hi _ (by simp)),
    fun i hi e => absurd e (key i hi _ (by simp)), fun i hi e => absurd e (key i hi _ (by simp)),
    fun i hi e => absurd e (key i hi _ (by simp)), fun i hi e => absurd e (key i hi _ (by simp))⟩

/-- The action is one of those declared. -/
def actOk (h : Hardware) (d : Decl) : Action → Bool
  | .output _ => d.output
  | .group _ => d.output && h.groups
  | .popVlan => d.output
  | .pushVlan _ => d.setFields.contains fVlanVid
  | .setField k _ => d.setFields.contains k
  | .decTtl => d.decTtl && h.decTtl
  | .ct _ => false
  | .other _ => false

/-- The instruction is one of those announced; `eg`: or one for the egress pipeline. -/
def InstOk (h : Hardware) (d : Decl) (nx : List Nat) (eg : Bool) : Inst → Prop
  | .apply as => ∀ a ∈ as, actOk h d a = true
  | .goto n => eg = true ∨ n ∈ nx
  | .meter _ => d.meter = true
  | .writeMetadata _ m => eg = true ∨ False ∧ Bits m d.metadataWrite

def InstsOk (h : Hardware) (d : Decl) (nx : List Nat) (eg : Bool) (is : List Inst) : Prop := ∀ i ∈ is, InstOk h d nx eg i

theorem trimActions_sub {as : List Action} {a : Action} (h : a ∈ trimActions as) : a ∈ as := by
  have gen : ∀ (l : List Action) (st : List Action × List Action), a ∈ (l.foldl trimStep st).1 → a ∈ st.1 ∨ a ∈ st.2 ∨ a ∈ l := by
    intro l
    induction l with
    | nil => intro st h; exact Or.inl h
    | cons x l ih =>
      intro st h
      rcases ih _ h with h | h | h
      · unfold trimStep at h
        split at h
        · simp at h
          rcases h with h | h | h
          · exact Or.inl h
          · exact Or.inr (Or.inl h)
          · exact Or.inr (Or.inr (by simp [h]))
        · exact Or.inl h
      · unfold trimStep at h
        split at h
        · simp at h
        · simp at h
          rcases h with h | h
          · exact Or.inr (Or.inl h)
          · exact Or.inr (Or.inr (by simp [h]))
      · exact Or.inr (Or.inr (List.mem_cons_of_mem _ h))
  rcases gen as ([], []) h with h | h | h
  · cases h
  · cases h
  · exact h

theorem trim_ok {h : Hardware} {d : Decl} {nx : List Nat} {eg : Bool} {is : List Inst} (ok : InstsOk h d nx eg is) :
    InstsOk h d nx eg (trimInst is) := by
  intro j hj
  obtain ⟨i, hi, e⟩ := List.mem_filterMap.1 hj
  have hi := ok i hi
  cases i with
  | apply as =>
    have hi : ∀ a ∈ as, actOk h d a = true := hi
    simp only [trimOne] at e
    split_ifs at e
    · cases e
      exact fun a ha => hi a (trimActions_sub ha)
    · cases e
      exact hi
  | _ => cases e; exact hi

/-- A rule other than the miss rule. -/
structure RuleLaw (h : Hardware) (d : Decl) (nx : List Nat) (eg : Bool) (f : FlowMod) : Prop where
  puts : Puts f
  prio : f.priority ≠ 0
  shape : shapeOk d (shape f.mtch.items) = true
  once : distinct (Features.shape f.mtch.items) = true
  wf : WellFormed f.mtch.items
  metadata : ∀ i ∈ f.mtch.items, i.field = fMetadata → ∀ m, i.mask = some m → Bits m d.metadataMatch
  insts : InstsOk h d nx eg f.inst

structure MissLaw (t : Pipeline.TableConfig) (c : Conf) (f : FlowMod) : Prop where
  puts : Puts f
  prio : f.priority = 0
  items : f.mtch.items = []
  insts : (t.miss = none ∧ f.inst = []) ∨ ∃ m, t.miss = some m ∧ f.inst = [.goto (Pipeline.idOf c m)]

structure DelLaw (d : Decl) (f : FlowMod) : Prop where
  del : ¬ Puts f
  known : known d (shape f.mtch.items) = true
  once : distinct (Features.shape f.mtch.items) = true
  insts : f.inst = []

/-- The ids that were announced as next tables. -/
def nextIds (c : Conf) (t : Tbl) : List Nat := (((Pipeline.table c t).map (·.next)).getD []).map (Pipeline.idOf c)

/-- The flow mod is for a table of the datapath and fits it. -/
def FlowLaw (h : Hardware) (s : Setup) (eg : Bool) (f : FlowMod) : Prop :=
  (f.table = tableAll ∧ f.cmd = .delete ∧ f.mtch.items = [] ∧ f.inst = []) ∨
  ∃ t, Pipeline.table s.conf t.name = some t ∧ f.table = t.id ∧
    (RuleLaw h (s.decl t.name) (nextIds s.conf t.name) eg f ∨ MissLaw t s.conf f ∨ DelLaw (s.decl t.name) f)

def MsgLaw (h : Hardware) (s : Setup) (eg : Bool) : OfMsg → Prop
  | .flow f => FlowLaw h s eg f
  | _ => True

/-! ## From laws to the specification -/

theorem mem_shape {is : List MatchItem} {i : MatchItem} (h : i ∈ is) : (i.field, i.mask.isSome) ∈ shape is :=
  List.mem_map.2 ⟨i, h, rfl⟩

theorem shape_declared {d : Decl} {is : List MatchItem} (h : shapeOk d (shape is) = true) {i : MatchItem} (hi : i ∈ is) :
    ∃ m, (i.field, m) ∈ d.matchTypes ∧ (i.mask ≠ none → m = true) := by
  unfold shapeOk at h
  rw [Bool.and_eq_true, List.all_eq_true] at h
  have := h.1 _ (mem_shape hi)
  obtain ⟨x, hx, e⟩ := List.any_eq_true.1 this
  simp only [Bool.and_eq_true, beq_iff_eq, Bool.or_eq_true, Bool.not_eq_true'] at e
  refine ⟨x.2, ?_, ?_⟩
  · rw [← e.1]; exact hx
  · intro hm
    rcases e.2 with e2 | e2
    · exact e2
    · cases hq : i.mask with
      | none => exact absurd hq hm
      | some v => rw [hq] at e2; cases e2

theorem shape_exact {d : Decl} {is : List MatchItem} (h : shapeOk d (shape is) = true) (hx : d.exact = true) :
    ∀ e ∈ d.matchTypes, ∃ i ∈ is, i.field = e.1 := by
  unfold shapeOk at h
  rw [Bool.and_eq_true] at h
  intro e he
  have h2 := h.2
  simp only [hx, Bool.not_true, Bool.false_or, List.all_eq_true] at h2
  obtain ⟨y, hy, q⟩ := List.any_eq_true.1 (h2 e he)
  obtain ⟨i, hi, rfl⟩ := List.mem_map.1 hy
  exact ⟨i, hi, by simpa using q⟩

theorem sets_ok {h : Hardware} {d : Decl} {nx : List Nat} {eg : Bool} {f : FlowMod} (ok : InstsOk h d nx eg f.inst) :
    ∀ k v, Acts f (.setField k v) → k ∈ d.setFields := by
  rintro k v ⟨as, h1, h2⟩
  have : ∀ a ∈ as, actOk h d a = true := ok _ h1
  have := this _ h2
  simpa [actOk] using this

theorem rule_fits {h : Hardware} {d : Decl} {nx : List Nat} {eg : Bool} {f : FlowMod} (l : RuleLaw h d nx eg f) : Fits d f where
  declared := fun _ hi => let ⟨m, hm, _⟩ := shape_declared l.shape hi; ⟨m, hm⟩
  masked := fun _ _ hi hm => by
    obtain ⟨m, h1, h2⟩ := shape_declared l.shape hi
    rw [h2 hm] at h1
    exact h1
  exact := fun _ hx _ => shape_exact l.shape hx
  default := fun _ h0 => absurd h0 l.prio
  sets := sets_ok l.insts
  once := distinct_nodup l.once

theorem miss_fits {d : Decl} {t : Pipeline.TableConfig} {c : Conf} {f : FlowMod} (l : MissLaw t c f) : Fits d f where
  declared := fun i hi => by rw [l.items] at hi; cases hi
  masked := fun _ i hi => by rw [l.items] at hi; cases hi
  exact := fun _ _ hn => absurd l.items hn
  default := fun _ _ => l.items
  sets := by
    rintro k v ⟨as, h1, h2⟩
    rcases l.insts with ⟨_, e⟩ | ⟨m, _, e⟩ <;> rw [e] at h1 <;> simp at h1
  once := by rw [l.items]; exact List.nodup_nil

theorem del_fits {d : Decl} {f : FlowMod} (l : DelLaw d f) : Fits d f where
  declared := fun i hi => by
    obtain ⟨x, hx, e⟩ := List.any_eq_true.1 (List.all_eq_true.1 l.known _ (mem_shape hi))
    refine ⟨x.2, ?_⟩
    have e : x.1 = i.field := by simpa using e
    rw [← e]
    exact hx
  masked := fun h => absurd h l.del
  exact := fun h => absurd h l.del
  default := fun h => absurd h l.del
  sets := by
    rintro k v ⟨as, h1, h2⟩
    rw [l.insts] at h1
    cases h1
  once := distinct_nodup l.once

theorem nextIds_eq {c : Conf} {t : Pipeline.TableConfig} (h : Pipeline.table c t.name = some t) :
    nextIds c t.name = t.next.map (Pipeline.idOf c) := by
  unfold nextIds
  rw [h]
  rfl

theorem rule_accepted {h : Hardware} {s : Setup} {t : Pipeline.TableConfig} {f : FlowMod} (ht : Pipeline.table s.conf t.name = some t)
    (l : RuleLaw h (s.decl t.name) (nextIds s.conf t.name) false f) : Accepts (tableFeatures h s t) f where
  fields := fun i hi => by
    obtain ⟨m, h1, h2⟩ := shape_declared l.shape hi
    exact ⟨_, h1, rfl, h2⟩
  omitted := by
    intro _ e he
    by_cases hx : (s.decl t.name).exact = true
    · exact Or.inl (shape_exact l.shape hx e he)
    · refine Or.inr ⟨e, ?_, rfl⟩
      show e ∈ (if (s.decl t.name).exact then [] else (s.decl t.name).matchTypes)
      rw [if_neg hx]
      exact he
  metadata := l.metadata
  insts := by
    intro _ i hi
    have := l.insts i hi
    show kindOfInst i ∈ instKinds (s.decl t.name) (t.next.map (Pipeline.idOf s.conf))
    rw [← nextIds_eq ht]
    unfold instKinds
    cases i with
    | apply as => simp [kindOfInst]
    | goto n =>
      rcases this with this | this
      · cases this
      · have hn : nextIds s.conf t.name ≠ [] := fun e => by rw [e] at this; cases this
        simp [kindOfInst, hn]
    | meter n =>
      have : (s.decl t.name).meter = true := this
      simp [kindOfInst, this]
    | writeMetadata v m =>
      rcases this with this | this
      · cases this
      · exact this.1.elim
  next := by
    intro _ n hn
    show n ∈ t.next.map (Pipeline.idOf s.conf)
    rw [← nextIds_eq ht]
    rcases l.insts _ hn with h | h
    · cases h
    · exact h
  missInsts := fun h => absurd h.1 l.prio
  missNext := fun h => absurd h.1 l.prio
  actions := by
    rintro a ⟨as, h1, h2⟩
    have : ∀ a ∈ as, actOk h (s.decl t.name) a = true := l.insts _ h1
    have := this a h2
    show kindOfAct a ∈ actKinds h (s.decl t.name)
    unfold actKinds
    cases a with
    | output p => have : (s.decl t.name).output = true := this; simp [kindOfAct, this]
    | group p => simp only [actOk, Bool.and_eq_true] at this; simp [kindOfAct, this.1, this.2]
    | popVlan => have : (s.decl t.name).output = true := this; simp [kindOfAct, this]
    | pushVlan e =>
      have : fVlanVid ∈ (s.decl t.name).setFields := by simpa [actOk] using this
      have hn : (s.decl t.name).setFields ≠ [] := fun e => by rw [e] at this; cases this
      simp [kindOfAct, this, hn]
    | setField k v =>
      have : k ∈ (s.decl t.name).setFields := by simpa [actOk] using this
      have hn : (s.decl t.name).setFields ≠ [] := fun e => by rw [e] at this; cases this
      simp [kindOfAct, hn]
    | decTtl => simp only [actOk, Bool.and_eq_true] at this; simp [kindOfAct, this.1, this.2]
    | ct n => cases this
    | other n => cases this
  sets := sets_ok l.insts
  writes := by
    intro v m hm
    rcases l.insts _ hm with h | h
    · cases h
    · exact h.2
  prereq := l.wf
  once := distinct_nodup l.once

theorem miss_accepted {h : Hardware} {s : Setup} {t : Pipeline.TableConfig} {f : FlowMod}
    (l : MissLaw t s.conf f) : Accepts (tableFeatures h s t) f := by
  have hm : IsMiss f := ⟨l.prio, l.items⟩
  have ni : ∀ {P : MatchItem → Prop}, ∀ i ∈ f.mtch.items, P i := fun i hi => by rw [l.items] at hi; cases hi
  have na : ∀ a, ¬ Acts f a := by
    rintro a ⟨as, h1, h2⟩
    rcases l.insts with ⟨_, e⟩ | ⟨m, _, e⟩ <;> rw [e] at h1 <;> simp at h1
  refine ⟨ni, fun h => absurd hm h, ni, fun h => absurd hm h, fun h => absurd hm h, ?_, ?_, fun a ha => absurd ha (na a),
    fun k v ha => absurd ha (na _), ?_, ⟨ni, ni, ni, ni, ni, ni⟩, by rw [l.items]; exact List.nodup_nil⟩
  · intro _ i hi
    show kindOfInst i ∈ (if t.miss.isSome then [InstKind.goto] else [])
    rcases l.insts with ⟨_, e⟩ | ⟨m, h1, e⟩ <;> rw [e] at hi
    · cases hi
    · simp at hi
      rw [hi, h1]
      simp [kindOfInst]
  · intro _ n hn
    show n ∈ t.miss.toList.map (Pipeline.idOf s.conf)
    rcases l.insts with ⟨_, e⟩ | ⟨m, h1, e⟩ <;> rw [e] at hn
    · cases hn
    · simp at hn
      rw [hn, h1]
      simp
  · intro v m hw
    rcases l.insts with ⟨_, e⟩ | ⟨m, h1, e⟩ <;> rw [e] at hw <;> simp at hw

/-! ## The checks of the code -/

theorem get_some {d : Dict Nat Bool} {k : Nat} {m : Bool} (h : (k, m) ∈ d) : (d.get? k).isSome = true := by
  induction d with
  | nil => cases h
  | cons e d ih =>
    obtain ⟨k', v⟩ := e
    simp only [Dict.get?]
    split
    · rfl
    · rename_i hne
      rcases List.mem_cons.1 h with h | h
      · cases h; exact absurd rfl hne
      · exact ih h

theorem get_mem {d : Dict Nat Bool} {k : Nat} {m : Bool} (h : d.get? k = some m) : (k, m) ∈ d := by
  induction d with
  | nil => cases h
  | cons e d ih =>
    obtain ⟨k', v⟩ := e
    simp only [Dict.get?] at h
    split at h
    · rename_i he
      cases h
      rw [he]
      exact List.mem_cons_self
    · exact List.mem_cons_of_mem _ (ih h)

/-- The fields of a declaration are there once. -/
def Decl.Ok (d : Decl) : Prop := (d.matchTypes.map (·.1)).Nodup

theorem get_of_mem {d : Dict Nat Bool} (hd : (d.map (·.1)).Nodup) {k : Nat} {m : Bool} (h : (k, m) ∈ d) : d.get? k = some m := by
  induction d with
  | nil => cases h
  | cons e d ih =>
    obtain ⟨k', v⟩ := e
    rw [List.map_cons, List.nodup_cons] at hd
    simp only [Dict.get?]
    rcases List.mem_cons.1 h with h | h
    · cases h; rw [if_pos rfl]
    · rw [if_neg (fun e => hd.1 (by rw [show (k', v).1 = k from e]; exact List.mem_map.2 ⟨_, h, rfl⟩))]
      exact ih hd.2 h

theorem len_eq {a b : List Nat} (ha : a.Nodup) (hb : b.Nodup) (h : ∀ x, x ∈ a ↔ x ∈ b) : a.length = b.length :=
  Nat.le_antisymm ((List.subperm_of_subset ha (fun x hx => (h x).1 hx)).length_le)
    ((List.subperm_of_subset hb (fun x hx => (h x).2 hx)).length_le)

/-- **A rule that fits is made without exception.** -/
theorem verify_of_fits {d : Decl} {f : FlowMod} (hd : d.Ok) (h : Fits d f) : verify d f = true := by
  unfold verify
  rw [Bool.and_eq_true]
  constructor
  · unfold verifyMatch
    split
    · rw [List.all_eq_true]
      intro i hi
      obtain ⟨m, hm⟩ := h.declared i hi
      exact get_some hm
    · rename_i hdel
      have hp : Puts f := by
        cases hc : f.cmd <;> simp [isDelete, hc] at hdel
        · exact Or.inl hc
        · exact Or.inr hc
      simp only [Bool.and_eq_true, List.all_eq_true]
      refine ⟨⟨?_, ?_⟩, ?_⟩
      · by_cases h0 : f.priority = 0
        · rw [h.default hp h0]; simp
        · simp [h0]
      · intro i hi
        obtain ⟨m, hm⟩ := h.declared i hi
        unfold fieldOk
        rw [get_of_mem hd hm]
        by_cases hmask : i.mask = none
        · simp [hmask]
        · have := get_of_mem hd (h.masked hp i hi hmask)
          rw [get_of_mem hd hm] at this
          cases this
          rfl
      · unfold exactOk
        by_cases hx : d.exact = true
        · by_cases hn : f.mtch.items = []
          · simp [hn]
          · have : (d.matchTypes.map (·.1)).length = (f.mtch.items.map (·.field)).length := by
              refine len_eq hd h.once (fun x => ⟨?_, ?_⟩)
              · intro hxm
                obtain ⟨e, he, rfl⟩ := List.mem_map.1 hxm
                obtain ⟨i, hi, q⟩ := h.exact hp hx hn e he
                rw [← q]
                exact List.mem_map.2 ⟨i, hi, rfl⟩
              · intro hxm
                obtain ⟨i, hi, rfl⟩ := List.mem_map.1 hxm
                obtain ⟨m, hm⟩ := h.declared i hi
                exact List.mem_map.2 ⟨_, hm, rfl⟩
            simp only [List.length_map] at this
            simp [this]
        · simp [hx]
  · unfold verifySets
    rw [Bool.or_eq_true, List.all_eq_true]
    right
    intro i hi
    cases i with
    | apply as =>
      simp only [applyOk, Bool.or_eq_true, List.all_eq_true]
      right
      intro a ha
      cases a with
      | setField k v =>
        have := h.sets k v ⟨as, hi, ha⟩
        simpa [setOk] using this
      | _ => rfl
    | _ => rfl

/-- What the checks of the code say: they are as strong as fitting, except for the fields that are set by rules with a goto
or with connection tracking, and for matches with a field twice. -/
theorem fits_of_verify {d : Decl} {f : FlowMod} (ho : (f.mtch.items.map (·.field)).Nodup)
    (hs : ∀ k v, Acts f (.setField k v) → k ∈ d.setFields) (h : verify d f = true) : Fits d f := by
  unfold verify verifyMatch at h
  rw [Bool.and_eq_true] at h
  obtain ⟨h1, -⟩ := h
  by_cases hdel : isDelete f = true
  · rw [if_pos hdel, List.all_eq_true] at h1
    have np : ¬ Puts f := by
      rintro (hp | hp) <;> simp [isDelete, hp] at hdel
    refine ⟨?_, fun hp => absurd hp np, fun hp => absurd hp np, fun hp => absurd hp np, hs, ho⟩
    intro i hi
    obtain ⟨m, hm⟩ := Option.isSome_iff_exists.1 (h1 i hi)
    exact ⟨m, get_mem hm⟩
  · rw [if_neg hdel] at h1
    simp only [Bool.and_eq_true, List.all_eq_true] at h1
    obtain ⟨⟨h0, hf⟩, hx⟩ := h1
    have fld : ∀ i ∈ f.mtch.items, ∃ m, (i.field, m) ∈ d.matchTypes ∧ (i.mask ≠ none → m = true) := by
      intro i hi
      have := hf i hi
      unfold fieldOk at this
      cases hq : d.matchTypes.get? i.field with
      | none => rw [hq] at this; cases this
      | some m =>
        rw [hq] at this
        refine ⟨m, get_mem hq, ?_⟩
        intro hm
        cases hk : i.mask with
        | none => exact absurd hk hm
        | some v => simpa [hk] using this
    refine ⟨fun i hi => let ⟨m, hm, _⟩ := fld i hi; ⟨m, hm⟩, ?_, ?_, ?_, hs, ho⟩
    · intro _ i hi hm
      obtain ⟨m, h1, h2⟩ := fld i hi
      rw [h2 hm] at h1
      exact h1
    · intro _ hex hne e he
      unfold exactOk at hx
      have hlen : d.matchTypes.length = f.mtch.items.length := by
        cases hq : f.mtch.items with
        | nil => exact absurd hq hne
        | cons a l => simpa [hex, hq] using hx
      have sub : f.mtch.items.map (·.field) ⊆ d.matchTypes.map (·.1) := by
        intro x hxm
        obtain ⟨i, hi, rfl⟩ := List.mem_map.1 hxm
        obtain ⟨m, hm, _⟩ := fld i hi
        exact List.mem_map.2 ⟨_, hm, rfl⟩
      have perm : (f.mtch.items.map (·.field)).Perm (d.matchTypes.map (·.1)) :=
        (List.subperm_of_subset ho sub).perm_of_length_le (by simp [hlen])
      have : e.1 ∈ f.mtch.items.map (·.field) := perm.mem_iff.2 (List.mem_map.2 ⟨e, he, rfl⟩)
      obtain ⟨i, hi, q⟩ := List.mem_map.1 this
      exact ⟨i, hi, q⟩
    · intro _ hp
      simpa [hp] using h0

end Faucet.Features
