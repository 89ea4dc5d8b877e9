import Verif.Acl.Props

/-!
# A table divided among ports or VLANs

Each port (or VLAN) has flows of its own in the table, which carry an exact match on it.
-/

namespace Faucet.Acl
open Faucet.OF Faucet.FlowReorder

/-- The items that tell the slices apart: exact, and a packet has at most one. -/
structure Keys (item : Nat → MatchItem) : Prop where
  exact : ∀ n, (item n).mask = none
  one : ∀ p n m, (item n).hits p = true → (item m).hits p = true → n = m

theorem covers_exact {a x : MatchItem} (h : a.mask = none) (hc : a.covers x = true) : x = a := by
  obtain ⟨f, v, m⟩ := a
  obtain ⟨f', v', m'⟩ := x
  simp only at h
  subst h
  cases m' with
  | none =>
    simp only [MatchItem.covers, Bool.and_eq_true, beq_iff_eq] at hc
    rw [hc.1, hc.2]
  | some k => simp [MatchItem.covers] at hc

theorem covers_self (a : MatchItem) (h : a.mask = none) : a.covers a = true := by
  obtain ⟨f, v, m⟩ := a
  simp only at h
  subst h
  simp [MatchItem.covers]

/-- The flows of slice `n`. -/
structure GoodFlows (t : Nat) (item : Nat → MatchItem) (n : Nat) (fs : List FlowMod) : Prop where
  add : ∀ f ∈ fs, f.cmd = .add
  table : ∀ f ∈ fs, f.table = t
  key : ∀ f ∈ fs, item n ∈ f.mtch.items
  prio : ∀ f ∈ fs, 0 < f.priority
  agree : ∀ f ∈ fs, ∀ g ∈ fs, f.slot = g.slot → f.body = g.body

/-- The table has, for the packets of every slice, exactly the flows of the slice besides the default. -/
structure Sliced (t : Nat) (item : Nat → MatchItem) (cfg : Nat → List FlowMod) (sw : Switch) : Prop where
  good : ∀ n, GoodFlows t item n (cfg n)
  flows : ∀ n p, (item n).hits p = true → ∀ s b, s.table = t → hitsAll s.items p = true → 0 < s.priority →
    (sw.flows s = some b ↔ ∃ f ∈ cfg n, f.slot = s ∧ f.body = b)
  default : ∀ s b, sw.flows s = some b → s.table = t → s.priority = 0 → b.inst = []

def setCfg (cfg : Nat → List FlowMod) (n : Nat) (fs : List FlowMod) : Nat → List FlowMod := fun m => if m = n then fs else cfg m

theorem hits_of_mem {items : List MatchItem} {p : Pkt} {i : MatchItem} (h : hitsAll items p = true) (hi : i ∈ items) :
    i.hits p = true := by
  unfold hitsAll at h
  rw [List.all_eq_true] at h
  exact h i hi

theorem sliced_step {t : Nat} {item : Nat → MatchItem} (hk : Keys item) {cfg : Nat → List FlowMod} {sw : Switch}
    (hs : Sliced t item cfg sw) (n : Nat) (fs : List FlowMod) (hg : GoodFlows t item n fs) (batch : List OfMsg)
    (hp : PlainAdds batch) (hin : ∀ f ∈ fs, .flow f ∈ batch)
    (honly : ∀ f, .flow f ∈ batch → f.cmd = .add → f.table = t → f ∈ fs)
    (hdel : ∀ s b, s.table = t → Killed batch s b → item n ∈ s.items)
    (hkill : (∀ s b, s.table = t → item n ∈ s.items → Killed batch s b) ∨ cfg n = [] ∨ cfg n = fs) :
    Sliced t item (setCfg cfg n fs) (sw.execAll (deletesFirst batch)) := by
  have hadded : ∀ f ∈ fs, (sw.execAll (deletesFirst batch)).flows f.slot = some f.body := by
    intro f hf
    refine flows_added hp sw f.slot f.body ⟨f, hin f hf, hg.add f hf, rfl⟩ ?_
    intro g h1 h2 h3
    have ht : g.table = t := by
      have : g.slot.table = f.slot.table := by rw [h3]
      exact this.trans (hg.table f hf)
    exact hg.agree g (honly g h1 h2 ht) f hf h3
  have hrest : ∀ s b, s.table = t → (∀ f ∈ fs, f.slot ≠ s) →
      ((sw.execAll (deletesFirst batch)).flows s = some b ↔ sw.flows s = some b ∧ ¬ Killed batch s b) := by
    intro s b ht hne
    refine flows_not_added hp sw s b ?_
    intro f h1 h2 h3
    have ht' : f.table = t := by rw [← ht, ← h3]; rfl
    exact hne f (honly f h1 h2 ht') h3
  refine ⟨?_, ?_, ?_⟩
  · intro m
    unfold setCfg
    split
    · rename_i h; subst h; exact hg
    · exact hs.good m
  · intro m p hm s b ht hh hpr
    by_cases hmn : m = n
    · subst hmn
      have hc : setCfg cfg m fs m = fs := by simp [setCfg]
      rw [hc]
      by_cases hf : ∃ f ∈ fs, f.slot = s
      · obtain ⟨f, hf1, hf2⟩ := hf
        have h1 := hadded f hf1
        rw [hf2] at h1
        rw [h1]
        constructor
        · intro h; injection h with h; exact ⟨f, hf1, hf2, h⟩
        · rintro ⟨g, hg1, hg2, hg3⟩
          rw [← hg3, hg.agree g hg1 f hf1 (by rw [hg2, hf2])]
      · rw [hrest s b ht (fun f h1 h2 => hf ⟨f, h1, h2⟩), hs.flows m p hm s b ht hh hpr]
        constructor
        · rintro ⟨⟨f, h1, h2, h3⟩, h4⟩
          rcases hkill with hkill | hkill | hkill
          · refine absurd (hkill s b ht ?_) h4
            have := (hs.good m).key f h1
            rw [← h2]; exact this
          · rw [hkill] at h1; cases h1
          · rw [hkill] at h1; exact absurd ⟨f, h1, h2⟩ hf
        · rintro ⟨f, h1, h2, h3⟩; exact absurd ⟨f, h1, h2⟩ hf
    · have hc : setCfg cfg n fs m = cfg m := by simp [setCfg, hmn]
      rw [hc]
      have hnot : item n ∉ s.items := fun hi => hmn (hk.one p m n hm (hits_of_mem hh hi))
      rw [hrest s b ht (fun f h1 h2 => hnot (by have := hg.key f h1; rw [← h2]; exact this)),
        hs.flows m p hm s b ht hh hpr]
      constructor
      · rintro ⟨h1, _⟩; exact h1
      · intro h1; exact ⟨h1, fun hd => hnot (hdel s b ht hd)⟩
  · intro s b h ht hpr
    by_cases hf : ∃ f ∈ fs, f.slot = s
    · obtain ⟨f, hf1, hf2⟩ := hf
      have := hg.prio f hf1
      rw [← hf2] at hpr
      have h3 : f.priority = 0 := hpr
      omega
    · exact hs.default s b ((hrest s b ht (fun f h1 h2 => hf ⟨f, h1, h2⟩)).1 h).1 ht hpr

/-- A switch whose table has nothing but the default flow. -/
theorem sliced_init {t : Nat} {item : Nat → MatchItem} {sw : Switch}
    (h : ∀ s b, sw.flows s = some b → s.table = t → s.priority = 0 ∧ b.inst = []) : Sliced t item (fun _ => []) sw := by
  refine ⟨fun n => ⟨by simp, by simp, by simp, by simp, by simp⟩, ?_, fun s b h1 h2 _ => (h s b h1 h2).2⟩
  intro n p hn s b ht hh hpr
  constructor
  · intro h1
    have := (h s b h1 ht).1
    omega
  · rintro ⟨f, hf, _⟩; cases hf

/-! ## The flows of an ACL in a slice -/

/-- A failover group is used. -/
def Output.failover : Output → Prop
  | .dict d => d.failover ≠ none
  | .ordered l => ∃ g ns, OutAct.failover g ns ∈ l

def NoFailover (r : Rule) : Prop := ∀ a o, r.actions = some a → a.output = some o → ¬ o.failover

/-- What the ACLs of a slice must be like: no failover groups, no field given by two names, not more rules than
priorities, and not `exact_match`. -/
structure AclsOk (acls : List Acl) : Prop where
  noFailover : ∀ r ∈ allRules acls, NoFailover r
  unamb : ∀ r ∈ allRules acls, Unambiguous r
  fits : (allRules acls).length < aclPriority
  inOrder : firstExact acls = false

theorem noFailover_msgs (c : Ctx) (ht : c.tunnels = none) (r : Rule) (hr : NoFailover r) (x : List Inst × List OfMsg)
    (h : ruleInst c r = some x) : x.2 = [] := by
  unfold ruleInst at h
  split at h
  · injection h with h; subst h; rfl
  · rename_i a ha
    obtain ⟨m, _, h⟩ := Option.bind_eq_some_iff.1 h
    obtain ⟨o, ho, rfl⟩ := Option.map_eq_some_iff.1 h
    show o.msgs = []
    unfold outputOf at ho
    cases hout : a.output with
    | none => rw [hout] at ho; injection ho with ho; subst ho; rfl
    | some u =>
      rw [hout] at ho
      have hn := hr a u ha hout
      rw [ht] at ho
      cases u with
      | dict d =>
        simp only [buildOut, tunnelOut, Option.map_some] at ho
        injection ho with ho
        subst ho
        have hd : d.failover = none := by
          cases hd : d.failover with
          | none => rfl
          | some g => exact absurd (show (Output.dict d).failover by show d.failover ≠ none; rw [hd]; simp) hn
        simp [Out.append, dictHead, dictGoto, hd]
      | ordered l =>
        have hl : ∀ g ns, OutAct.failover g ns ∉ l := fun g ns hm => hn ⟨g, ns, hm⟩
        simp only [buildOut] at ho
        obtain ⟨o', ho', rfl⟩ := Option.map_eq_some_iff.1 ho
        show o'.msgs = []
        clear hn ho h
        have : ∀ (l : List OutAct), (∀ g ns, OutAct.failover g ns ∉ l) → ∀ (o o' : Out), o.msgs = [] →
            l.foldlM (fun (o : Out) a => (actOut none a).map (fun x => o.append x)) o = some o' → o'.msgs = [] := by
          intro l
          induction l with
          | nil => intro _ o o' h1 h2; simp only [List.foldlM_nil] at h2; injection h2 with h2; subst h2; exact h1
          | cons e l ih =>
            intro hl o o' h1 h2
            rw [List.foldlM_cons] at h2
            obtain ⟨o1, h3, h4⟩ := Option.bind_eq_some_iff.1 h2
            obtain ⟨y, hy, rfl⟩ := Option.map_eq_some_iff.1 h3
            refine ih (fun g ns hm => hl g ns (List.mem_cons_of_mem _ hm)) _ o' ?_ h4
            show o.msgs ++ y.msgs = []
            rw [h1, List.nil_append]
            unfold actOut tunnelOut at hy
            cases e with
            | failover g ns => exact absurd (List.mem_cons_self ..) (hl g ns)
            | _ => simp at hy; subst hy; rfl
        exact this l hl {} o' rfl ho'

/-- The flows among the messages. -/
def flowsOf (ms : List OfMsg) : List FlowMod := ms.filterMap (fun m => match m with | .flow f => some f | _ => none)

theorem mem_flowsOf {ms : List OfMsg} {f : FlowMod} : f ∈ flowsOf ms ↔ .flow f ∈ ms := by
  unfold flowsOf
  rw [List.mem_filterMap]
  constructor
  · rintro ⟨m, hm, h⟩
    cases m <;> first | (simp only [Option.some.injEq] at h; subst h; exact hm) | (simp at h)
  · intro h; exact ⟨_, h, rfl⟩

theorem buildList_flows (enc : Enc) (c : Ctx) (ht : c.tunnels = none) (hfd : c.flowdel = false) (rules : List Rule)
    (hr : ∀ r ∈ rules, NoFailover r) (base : Nat) (ms : List OfMsg) (h : buildList enc c base rules = some ms) :
    ∀ m ∈ ms, ∃ f, m = .flow f ∧ f.cmd = .add := by
  induction rules generalizing base ms with
  | nil => simp only [buildList] at h; injection h with h; subst h; intro m hm; cases hm
  | cons r rs ih =>
    simp only [buildList] at h
    obtain ⟨a, ha, h⟩ := Option.bind_eq_some_iff.1 h
    obtain ⟨b, hb, rfl⟩ := Option.map_eq_some_iff.1 h
    unfold buildRule at ha
    obtain ⟨items, h1, ha⟩ := Option.bind_eq_some_iff.1 ha
    obtain ⟨x, h2, rfl⟩ := Option.map_eq_some_iff.1 ha
    intro m hm
    rcases List.mem_append.1 hm with hm | hm
    · simp only [noFailover_msgs c ht r (hr r (by simp)) x h2, hfd] at hm
      simp only [Bool.false_eq_true, if_false, List.append_nil, List.nil_append, List.mem_singleton] at hm
      exact ⟨_, hm, rfl⟩
    · exact ih (fun q hq => hr q (List.mem_cons_of_mem _ hq)) _ _ hb m hm

theorem mem_matchFromDict {enc : Enc} {d : Dict Key Val} {items : List MatchItem} (h : matchFromDict enc d = some items)
    (f : Nat) (v : Val) (hl : lastVal d f = some v) : ∃ x, enc f v = some x ∧ ⟨f, x.1, x.2⟩ ∈ items := by
  unfold matchFromDict at h
  obtain ⟨kw, h1, rfl⟩ := Option.map_eq_some_iff.1 h
  obtain ⟨x, hx, hg⟩ := (foldlM_kw enc _ _ kw h1 f).2.1 v hl
  exact ⟨x, hx, List.mem_map.2 ⟨(f, x), mem_isort.2 (Dict.mem_of_get? hg), rfl⟩⟩

theorem port_item_mem {enc : Enc} (he : EncOk enc) (c : Ctx) (n : Nat) (hc : c.port = some n) (hv : c.vlan = none) (r : Rule)
    (hu : Unambiguous r) (items : List MatchItem) (h : ruleMatch enc c r = some items) : inPortItem n ∈ items := by
  unfold ruleMatch at h
  rw [hc, hv] at h
  obtain ⟨x, hx, hm⟩ := mem_matchFromDict h fInPort (.int n) (by
    show lastVal (r.fields.set (.new fInPort) (.int n)) fInPort = _
    rw [lastVal_set _ hu, if_pos rfl])
  rw [he.inPort] at hx
  injection hx with hx
  subst hx
  exact hm

theorem vid_item_mem {enc : Enc} (he : EncOk enc) (c : Ctx) (v : Nat) (hc : c.port = none) (hv : c.vlan = some v) (r : Rule)
    (hu : Unambiguous r) (items : List MatchItem) (h : ruleMatch enc c r = some items) : vidItem v ∈ items := by
  unfold ruleMatch at h
  rw [hc, hv] at h
  obtain ⟨x, hx, hm⟩ := mem_matchFromDict h fVlanVid (.int (vidPresent v)) (by
    show lastVal (r.fields.set (.new fVlanVid) (.int (vidPresent v))) fVlanVid = _
    rw [lastVal_set _ hu, if_pos rfl])
  rw [he.vid, vidPresent_twice] at hx
  injection hx with hx
  subst hx
  exact hm

theorem buildAcls_good {enc : Enc} (c : Ctx) (hx : c.exact = false) (hhi : c.highest = aclPriority) (acls : List Acl)
    (hok : AclsOk acls) (item : Nat → MatchItem) (n : Nat)
    (hitem : ∀ r ∈ allRules acls, ∀ items, ruleMatch enc c r = some items → item n ∈ items) (ms : List OfMsg)
    (h : buildAcls enc c acls = some ms) (hct : c.tunnels = none) (hfd : c.flowdel = false) :
    GoodFlows c.table.id item n (flowsOf ms) ∧ ∀ m ∈ ms, ∃ f, m = .flow f ∧ f.cmd = .add := by
  rw [buildAcls_eq] at h
  change buildList enc c c.highest (allRules acls) = some ms at h
  have hall := buildList_flows enc c hct hfd (allRules acls) hok.noFailover _ ms h
  obtain ⟨_, hm2, _⟩ := mem_buildList enc c _ _ ms h
  have hfl : ∀ f ∈ flowsOf ms, f.cmd = .add ∧ ∃ i r items x, (allRules acls)[i]? = some r ∧
      ruleMatch enc c r = some items ∧ ruleInst c r = some x ∧ f = aclFlow c.table items (c.highest - i) x.1 r.cookie := by
    intro f hf
    rw [mem_flowsOf] at hf
    obtain ⟨f', h1, h2⟩ := hall _ hf
    injection h1 with h1
    subst h1
    refine ⟨h2, ?_⟩
    obtain ⟨i, r, items, x, e1, e2, e3, e4⟩ := hm2 f hf h2
    refine ⟨i, r, items, x, e1, e2, e3, ?_⟩
    unfold prioOf at e4
    rw [hx] at e4
    exact e4
  have hlt : ∀ {i : Nat} {r : Rule}, (allRules acls)[i]? = some r → i < (allRules acls).length := by
    intro i r hi
    exact (List.getElem?_eq_some_iff.1 hi).1
  have hfit := hok.fits
  refine ⟨⟨fun f hf => (hfl f hf).1, ?_, ?_, ?_, ?_⟩, hall⟩
  · intro f hf; obtain ⟨_, i, r, items, x, _, _, _, e⟩ := hfl f hf; rw [e]; rfl
  · intro f hf
    obtain ⟨_, i, r, items, x, e1, e2, _, e⟩ := hfl f hf
    rw [e]
    exact hitem r (List.mem_of_getElem? e1) items e2
  · intro f hf
    obtain ⟨_, i, r, items, x, e1, e2, _, e⟩ := hfl f hf
    rw [e]
    show 0 < c.highest - i
    have := hlt e1
    omega
  · intro f hf g hg hs
    obtain ⟨_, i, r, items, x, e1, e2, e3, e⟩ := hfl f hf
    obtain ⟨_, j, r', items', x', d1, d2, d3, d⟩ := hfl g hg
    rw [e, d] at hs
    injection hs with _ hpp _
    have hij : i = j := by
      have := hlt e1
      have := hlt d1
      have h' : c.highest - i = c.highest - j := hpp
      omega
    subst hij
    rw [e1] at d1
    injection d1 with d1
    subst d1
    rw [e3] at d3
    injection d3 with d3
    subst d3
    rw [e, d]
    rfl

/-- In a slice that has the flows of an ACL, the first rule a packet meets decides; a packet that meets none is dropped. -/
theorem slice_decides {enc : Enc} (he : EncOk enc) (c : Ctx) (hx : c.exact = false) (hhi : c.highest = aclPriority)
    (acls : List Acl) (hok : AclsOk acls) (item : Nat → MatchItem) (n : Nat) (ms : List OfMsg)
    (h : buildAcls enc c acls = some ms) (cfg : Nat → List FlowMod) (hcfg : cfg n = flowsOf ms) (sw : Switch)
    (hs : Sliced c.table.id item cfg sw) (p : Pkt) (hn : (item n).hits p = true)
    (es : List Emit) (hproc : Proc sw c.table.id p es) :
    (∀ r, FirstMatch enc c.port c.vlan (allRules acls) r p →
      (r.actions = none → es = []) ∧ ∀ a, r.actions = some a → Direct a → Does sw c.allowTable c.forceTable a p es) ∧
    ((∀ r ∈ allRules acls, ¬ Meets enc c.port c.vlan r p) → es = []) := by
  rw [buildAcls_eq] at h
  change buildList enc c c.highest (allRules acls) = some ms at h
  obtain ⟨hm1, hm2, hm3⟩ := mem_buildList enc c _ _ ms h
  have hprio : ∀ i, prioOf c c.highest i = c.highest - i := by
    intro i; unfold prioOf; rw [hx]; rfl
  have hlt : ∀ {i : Nat} {r : Rule}, (allRules acls)[i]? = some r → i < (allRules acls).length := by
    intro i r hi
    exact (List.getElem?_eq_some_iff.1 hi).1
  have hfit := hok.fits
  have hmeet : ∀ {i : Nat} {r : Rule} {items : List MatchItem}, (allRules acls)[i]? = some r →
      ruleMatch enc c r = some items → (hitsAll items p = true ↔ Meets enc c.port c.vlan r p) := by
    intro i r items hi hm
    exact hits_ruleMatch he c r (hok.unamb r (List.mem_of_getElem? hi)) items hm p
  have hcase : ∀ s b, sw.flows s = some b → s.table = c.table.id → hitsAll s.items p = true → 0 < s.priority →
      ∃ i r items x, (allRules acls)[i]? = some r ∧ ruleMatch enc c r = some items ∧ ruleInst c r = some x ∧
        s = ⟨c.table.id, c.highest - i, items⟩ ∧ b.inst = trimInst x.1 := by
    intro s b h1 h2 h3 h4
    obtain ⟨f, f1, f2, f3⟩ := (hs.flows n p hn s b h2 h3 h4).1 h1
    have hadd := (hs.good n).add f f1
    rw [hcfg, mem_flowsOf] at f1
    obtain ⟨i, r, items, x, e1, e2, e3, e4⟩ := hm2 f f1 hadd
    rw [hprio] at e4
    refine ⟨i, r, items, x, e1, e2, e3, ?_, ?_⟩
    · rw [← f2, e4]; rfl
    · rw [← f3, e4]; rfl
  constructor
  · intro r hr
    obtain ⟨i, h1, h2, h3⟩ := first_index hr
    obtain ⟨items, x, e1, e2, e3⟩ := hm1 i r h1
    rw [hprio] at e3
    have hi := hlt h1
    have hhit : hitsAll items p = true := (hmeet h1 e1).2 h2
    have hpos : 0 < c.highest - i := by omega
    have hflow : sw.flows ⟨c.table.id, c.highest - i, items⟩ =
        some (aclFlow c.table items (c.highest - i) x.1 r.cookie).body :=
      (hs.flows n p hn _ _ rfl hhit hpos).2 ⟨_, by rw [hcfg, mem_flowsOf]; exact e3, rfl, rfl⟩
    have hbest : ∀ s b, sw.flows s = some b → s.table = c.table.id → hitsAll s.items p = true →
        s.priority ≤ c.highest - i ∧ (s.priority = c.highest - i → b.inst = trimInst x.1) := by
      intro s b a1 a2 a3
      by_cases hp0 : 0 < s.priority
      · obtain ⟨j, r', items', x', d1, d2, d3, d4, d5⟩ := hcase s b a1 a2 a3 hp0
        rw [d4] at a3
        have hj : i ≤ j := h3 j r' d1 ((hmeet d1 d2).1 a3)
        have hjl := hlt d1
        rw [d4]
        refine ⟨by show c.highest - j ≤ _; omega, ?_⟩
        intro hpp
        have hij : i = j := by
          have : c.highest - j = c.highest - i := hpp
          omega
        subst hij
        rw [h1] at d1
        injection d1 with d1
        subst d1
        rw [e2] at d3
        injection d3 with d3
        subst d3
        exact d5
      · exact ⟨by omega, fun hpp => by omega⟩
    have hone : ∀ s b, Hit sw c.table.id p s b → b.inst = trimInst x.1 := by
      intro s b hh
      have hle := hh.best _ _ hflow rfl hhit
      obtain ⟨g1, g2⟩ := hbest s b hh.present hh.table hh.hits
      exact g2 (Nat.le_antisymm g1 hle)
    refine ⟨fun ha => run_rule_none sw c r ha x e2 p _ es hone hproc, ?_⟩
    intro a ha hd
    exact run_rule sw c r a ha hd x e2 p _ es hone
      ⟨_, _, hflow, rfl, hhit, fun s' b' a1 a2 a3 => (hbest s' b' a1 a2 a3).1⟩ hproc
  · intro hnone
    have hinst : ∀ s b, Hit sw c.table.id p s b → b.inst = [] := by
      intro s b hh
      by_cases hp0 : 0 < s.priority
      · obtain ⟨j, r', items', x', d1, d2, d3, d4, d5⟩ := hcase s b hh.present hh.table hh.hits hp0
        have hh' := hh.hits
        rw [d4] at hh'
        exact absurd ((hmeet d1 d2).1 hh') (hnone r' (List.mem_of_getElem? d1))
      · exact hs.default s b hh.present hh.table (by omega)
    cases hproc with
    | miss => rfl
    | done hh hg => rw [hinst _ _ hh]; rfl
    | next hh hg => rw [hinst _ _ hh] at hg; cases hg

/-- In a slice without flows packets are dropped. -/
theorem slice_empty {t : Nat} {item : Nat → MatchItem} {cfg : Nat → List FlowMod} {sw : Switch} (hs : Sliced t item cfg sw)
    (n : Nat) (hcfg : cfg n = []) (p : Pkt) (hn : (item n).hits p = true) (es : List Emit) (hproc : Proc sw t p es) :
    es = [] := by
  have hinst : ∀ s b, Hit sw t p s b → b.inst = [] := by
    intro s b hh
    by_cases hp0 : 0 < s.priority
    · obtain ⟨f, hf, _⟩ := (hs.flows n p hn s b hh.table hh.hits hp0).1 hh.present
      rw [hcfg] at hf
      cases hf
    · exact hs.default s b hh.present hh.table (by omega)
  cases hproc with
  | miss => rfl
  | done hh hg => rw [hinst _ _ hh]; rfl
  | next hh hg => rw [hinst _ _ hh] at hg; cases hg

/-- In a slice whose only flow passes everything on, packets go on unchanged. -/
theorem slice_pass {t : Nat} {item : Nat → MatchItem} {cfg : Nat → List FlowMod} {sw : Switch} (hs : Sliced t item cfg sw)
    (n : Nat) (f : FlowMod) (next : Nat) (hf : f.inst = [.goto next]) (hit : f.mtch.items = [item n]) (hcfg : cfg n = [f])
    (p : Pkt) (hn : (item n).hits p = true) (es : List Emit) (hproc : Proc sw t p es) : Proc sw next p es := by
  have hmem : f ∈ cfg n := by rw [hcfg]; simp
  have hh : hitsAll f.slot.items p = true := by
    show hitsAll f.mtch.items p = true
    rw [hit]
    simp [hitsAll, hn]
  have hflow := (hs.flows n p hn f.slot f.body ((hs.good n).table f hmem) hh ((hs.good n).prio f hmem)).2 ⟨f, hmem, rfl, rfl⟩
  have hpos : 0 < f.slot.priority := (hs.good n).prio f hmem
  have hinst : ∀ s b, Hit sw t p s b → b.inst = [.goto next] := by
    intro s b h1
    have hle := h1.best _ _ hflow ((hs.good n).table f hmem) hh
    obtain ⟨g, g1, g2, g3⟩ := (hs.flows n p hn s b h1.table h1.hits (by omega)).1 h1.present
    rw [hcfg, List.mem_singleton] at g1
    subst g1
    rw [← g3]
    exact hf
  cases hproc with
  | miss hm =>
    have := hm _ _ hflow ((hs.good n).table f hmem)
    rw [hh] at this
    cases this
  | done h1 hg => rw [hinst _ _ h1] at hg; cases hg
  | next h1 hg hrest =>
    rw [hinst _ _ h1] at hg hrest ⊢
    injection hg with hg
    subst hg
    exact hrest

end Faucet.Acl
