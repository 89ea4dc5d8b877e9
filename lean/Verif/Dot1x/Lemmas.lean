import Verif.Dot1x.Model
import Verif.Acl.Lemmas
import Verif.FlowReorder.Exec

/-! Helper lemmas about the flows of 802.1x ports. -/

namespace Faucet.Dot1x
open Faucet.OF Faucet.FlowReorder

/-! ## Executing a batch -/

/-- The message leaves the slot alone, or is not a strict modification. -/
def Tame (m : OfMsg) (s : Slot) : Prop := (∀ b, m.onFlow s b = b) ∨ (∀ f, m = .flow f → f.cmd ≠ .modifyStrict)

theorem kills_of_quiet {m : OfMsg} {s : Slot} (h : ∀ b, m.onFlow s b = b) (b : Body) : m.kills s b = false := by
  cases hk : m.kills s b
  · rfl
  · have hd := FlowReorder.kills_deletion hk
    have := h (some b)
    rw [FlowReorder.onFlow_deletion hd] at this
    simp [Option.filter, hk] at this

theorem onFlow_tame {m : OfMsg} {s : Slot} (h : Tame m s) (x : Option Body) (b : Body) (hb : m.onFlow s x = some b) :
    (∃ f, m = .flow f ∧ f.cmd = .add ∧ f.slot = s ∧ f.body = b) ∨ (x = some b ∧ m.kills s b = false) := by
  rcases h with h | h
  · right
    rw [h] at hb
    exact ⟨hb, kills_of_quiet h b⟩
  · by_cases hf : ∃ f, m = .flow f
    · obtain ⟨f, rfl⟩ := hf
      have hc := h f rfl
      simp only [OfMsg.onFlow] at hb
      cases hcmd : f.cmd
      · rw [hcmd] at hb
        simp only at hb
        split at hb
        · left
          rename_i hs
          injection hb with hb
          exact ⟨f, rfl, hcmd, hs, hb⟩
        · right
          refine ⟨hb, ?_⟩
          simp [OfMsg.kills, FlowMod.kills, hcmd]
      · exact absurd hcmd hc
      · right
        rw [hcmd] at hb
        simp only [Option.filter_eq_some_iff, Bool.not_eq_true'] at hb
        exact ⟨hb.1, hb.2⟩
      · right
        rw [hcmd] at hb
        simp only [Option.filter_eq_some_iff, Bool.not_eq_true'] at hb
        exact ⟨hb.1, hb.2⟩
    · right
      have : m.onFlow s x = x.filter (fun y => !m.kills s y) := by
        cases m <;> first | rfl | exact absurd ⟨_, rfl⟩ hf
      rw [this, Option.filter_eq_some_iff, Bool.not_eq_true'] at hb
      exact hb

/-- Where a flow comes from: the batch added it, or it was there and no message of the batch removes it. -/
theorem origin {ms : List OfMsg} {s : Slot} (ht : ∀ m ∈ ms, Tame m s) (sw : Switch) (b : Body)
    (h : (sw.execAll ms).flows s = some b) :
    (∃ f, .flow f ∈ ms ∧ f.cmd = .add ∧ f.slot = s ∧ f.body = b) ∨
    (sw.flows s = some b ∧ ∀ m ∈ ms, m.kills s b = false) := by
  induction ms generalizing sw with
  | nil => right; exact ⟨h, by simp⟩
  | cons m ms ih =>
    have he : sw.execAll (m :: ms) = (sw.exec m).execAll ms := rfl
    rw [he] at h
    rcases ih (fun x hx => ht x (List.mem_cons_of_mem _ hx)) _ h with ⟨f, h1, h2⟩ | ⟨h1, h2⟩
    · exact .inl ⟨f, List.mem_cons_of_mem _ h1, h2⟩
    · rcases onFlow_tame (ht m (by simp)) _ b h1 with ⟨f, rfl, h3⟩ | ⟨h3, h4⟩
      · exact .inl ⟨f, by simp, h3⟩
      · refine .inr ⟨h3, ?_⟩
        intro x hx
        rcases List.mem_cons.1 hx with rfl | hx
        · exact h4
        · exact h2 x hx

theorem onFlow_keep {m : OfMsg} {s : Slot} {b : Body} (h : Tame m s) (hk : m.kills s b = false)
    (ha : ∀ f, m = .flow f → f.cmd = .add → f.slot = s → f.body = b) : m.onFlow s (some b) = some b := by
  rcases h with h | h
  · exact h _
  · by_cases hf : ∃ f, m = .flow f
    · obtain ⟨f, rfl⟩ := hf
      have hc := h f rfl
      simp only [OfMsg.onFlow]
      simp only [OfMsg.kills] at hk
      cases hcmd : f.cmd
      · simp only
        split
        · rename_i hs
          rw [ha f rfl hcmd hs]
        · rfl
      · exact absurd hcmd hc
      · simp [Option.filter, hk]
      · simp [Option.filter, hk]
    · have : m.onFlow s (some b) = (some b).filter (fun y => !m.kills s y) := by
        cases m <;> first | rfl | exact absurd ⟨_, rfl⟩ hf
      rw [this]
      simp [Option.filter, hk]

/-- A flow stays if no message removes it and additions to its slot agree with it. -/
theorem persists {ms : List OfMsg} {s : Slot} {b : Body} (ht : ∀ m ∈ ms, Tame m s) (hk : ∀ m ∈ ms, m.kills s b = false)
    (ha : ∀ f, .flow f ∈ ms → f.cmd = .add → f.slot = s → f.body = b) (sw : Switch) (h : sw.flows s = some b) :
    (sw.execAll ms).flows s = some b := by
  induction ms generalizing sw with
  | nil => exact h
  | cons m ms ih =>
    have he : sw.execAll (m :: ms) = (sw.exec m).execAll ms := rfl
    rw [he]
    refine ih (fun x hx => ht x (List.mem_cons_of_mem _ hx)) (fun x hx => hk x (List.mem_cons_of_mem _ hx))
      (fun f hf => ha f (List.mem_cons_of_mem _ hf)) _ ?_
    show m.onFlow s (sw.flows s) = some b
    rw [h]
    exact onFlow_keep (ht m (by simp)) (hk m (by simp)) (fun f hf => ha f (by simp [hf]))

/-- A flow added by the batch is there if nothing in the batch removes it and additions to its slot agree. -/
theorem added {ms : List OfMsg} {f : FlowMod} (hf : .flow f ∈ ms) (hc : f.cmd = .add) (ht : ∀ m ∈ ms, Tame m f.slot)
    (hk : ∀ m ∈ ms, m.kills f.slot f.body = false)
    (ha : ∀ g, .flow g ∈ ms → g.cmd = .add → g.slot = f.slot → g.body = f.body) (sw : Switch) :
    (sw.execAll ms).flows f.slot = some f.body := by
  obtain ⟨pre, post, rfl⟩ := List.append_of_mem hf
  have h1 : ((sw.execAll pre).exec (.flow f)).flows f.slot = some f.body := by
    show (OfMsg.flow f).onFlow f.slot _ = some f.body
    simp only [OfMsg.onFlow, hc, if_pos]
  have he : sw.execAll (pre ++ OfMsg.flow f :: post) = ((sw.execAll pre).exec (.flow f)).execAll post := by
    simp [Switch.execAll, List.foldl_append]
  rw [he]
  exact persists (fun m hm => ht m (by simp [hm])) (fun m hm => hk m (by simp [hm]))
    (fun g hg => ha g (by simp [hg])) _ h1

/-! ## Matches that name a port or an address -/

/-- The match says: this value in this field, exactly, and says nothing else about the field. -/
def Pins (field v : Nat) (items : List MatchItem) : Prop :=
  (⟨field, v, none⟩ : MatchItem) ∈ items ∧ ∀ i ∈ items, i.field = field → i = ⟨field, v, none⟩

theorem covers_refl (i : MatchItem) : i.covers i = true := by
  obtain ⟨f, v, m⟩ := i
  cases m <;> simp [MatchItem.covers]

theorem coversItems_of_subset {d f : List MatchItem} (h : ∀ i ∈ d, i ∈ f) : coversItems d f = true := by
  unfold coversItems
  rw [List.all_eq_true]
  intro i hi
  rw [List.any_eq_true]
  exact ⟨i, h i hi, covers_refl i⟩

/-- A non-strict delete that names one value does not cover a flow that names another. -/
theorem not_covers {d f : List MatchItem} {field v w : Nat} (hd : (⟨field, v, none⟩ : MatchItem) ∈ d)
    (hf : ∀ i ∈ f, i.field = field → i = ⟨field, w, none⟩) (hne : v ≠ w) : coversItems d f = false := by
  cases hc : coversItems d f
  · rfl
  · unfold coversItems at hc
    rw [List.all_eq_true] at hc
    have := hc _ hd
    rw [List.any_eq_true] at this
    obtain ⟨i, hi, hcov⟩ := this
    simp only [MatchItem.covers, Bool.and_eq_true, beq_iff_eq] at hcov
    have := hf i hi hcov.1.symm
    subst this
    simp at hcov
    exact absurd hcov hne

/-- A non-strict delete that names a value in a field does not cover a flow that says nothing about the field. -/
theorem not_covers_absent {d f : List MatchItem} {field v : Nat} (hd : (⟨field, v, none⟩ : MatchItem) ∈ d)
    (hf : ∀ i ∈ f, i.field ≠ field) : coversItems d f = false := by
  cases hc : coversItems d f
  · rfl
  · unfold coversItems at hc
    rw [List.all_eq_true] at hc
    have := hc _ hd
    rw [List.any_eq_true] at this
    obtain ⟨i, hi, hcov⟩ := this
    simp only [MatchItem.covers, Bool.and_eq_true, beq_iff_eq] at hcov
    exact absurd hcov.1.symm (hf i hi)

/-- A flow message that names port `q` does nothing to flows that name port `p`. -/
theorem other_port_kills {f : FlowMod} {s : Slot} {p q : Nat} (hq : Pins fInPort q f.mtch.items)
    (hp : Pins fInPort p s.items) (hne : q ≠ p) (b : Body) : f.kills s b = false := by
  unfold FlowMod.kills
  have hcov := not_covers hq.1 hp.2 hne
  cases f.cmd
  · rfl
  · rfl
  · simp [hcov]
  · simp only
    have : (f.mtch.items == s.items) = false := by
      rw [beq_eq_false_iff_ne]
      intro he
      have := hp.2 _ (he ▸ hq.1) rfl
      simp at this
      exact hne this
    simp [this]

theorem other_port_slot {f : FlowMod} {s : Slot} {p q : Nat} (hq : Pins fInPort q f.mtch.items)
    (hp : Pins fInPort p s.items) (hne : q ≠ p) : f.slot ≠ s := by
  rintro rfl
  have := hp.2 _ hq.1 rfl
  simp at this
  exact hne this

theorem pins_hit {field v : Nat} {items : List MatchItem} {pkt : Pkt} (hp : Pins field v items)
    (h1 : field ≠ fVlanVid) (h2 : field ≠ fVlanPcp) (hh : hitsAll items pkt = true) : pkt.hdr field = some v := by
  unfold hitsAll at hh
  rw [List.all_eq_true] at hh
  exact (hits_exact h1 h2).1 (hh _ hp.1)

/-! ## The matches of ACL rules -/

theorem keyField_inPort {k : Acl.Key} (h : Acl.keyField k = some fInPort) : k = .new fInPort := by
  cases k with
  | new f => simp only [Acl.keyField, Option.some.injEq] at h; rw [h]
  | old f =>
    simp only [Acl.keyField] at h
    split at h
    · simp only [Option.some.injEq] at h
      subst h
      rename_i hc
      exact absurd hc (by decide)
    · cases h
  | unknown n => simp [Acl.keyField] at h

theorem lastVal_inPort (d : Dict Acl.Key Acl.Val) (hn : d.keys.Nodup) (v : Acl.Val) :
    Acl.lastVal (d.set (.new fInPort) v) fInPort = some v := by
  have hnone : ∀ d : Dict Acl.Key Acl.Val, .new fInPort ∉ d.keys → Acl.lastVal d fInPort = none := by
    intro d hd
    apply Acl.lastVal_none
    intro hm
    obtain ⟨e, he, hk⟩ := List.mem_map.1 hm
    exact hd (List.mem_map.2 ⟨e, he, keyField_inPort hk⟩)
  induction d with
  | nil => rfl
  | cons e d ih =>
    obtain ⟨k, w⟩ := e
    simp only [Dict.keys, List.map_cons, List.nodup_cons] at hn
    simp only [Dict.set]
    split
    · rename_i hk
      subst hk
      simp only [Acl.lastVal]
      rw [hnone d hn.1]
      simp [Acl.keyField]
    · simp only [Acl.lastVal]
      rw [ih hn.2]

/-- The flow of a rule applied to a port names that port. -/
theorem pins_ruleMatch {enc : Acl.Enc} (he : Acl.EncOk enc) {ctx : Acl.Ctx} {r : Acl.Rule} {items : List MatchItem} {n : Nat}
    (hn : r.fields.keys.Nodup) (hp : ctx.port = some n) (hv : ctx.vlan = none) (h : Acl.ruleMatch enc ctx r = some items) :
    Pins fInPort n items := by
  unfold Acl.ruleMatch Acl.matchFromDict at h
  obtain ⟨kw, h1, rfl⟩ := Option.map_eq_some_iff.1 h
  have hk := Acl.foldlM_kw enc _ _ kw h1 fInPort
  have hnd : (Dict.keys kw).Nodup := hk.2.2.1 (by simp [Dict.keys])
  have hl : Acl.lastVal (Acl.withVlan ctx.vlan (Acl.withPort ctx.port r.fields)) fInPort = some (.int n) := by
    rw [hv, hp]
    exact lastVal_inPort _ hn _
  obtain ⟨x, hx, hg⟩ := hk.2.1 _ hl
  rw [he.inPort] at hx
  injection hx with hx
  subst hx
  constructor
  · exact List.mem_map.2 ⟨(fInPort, (n, none)), mem_isort.2 (Dict.mem_of_get? hg), rfl⟩
  · intro i hi hf
    obtain ⟨⟨f, y⟩, hm, rfl⟩ := List.mem_map.1 hi
    simp only at hf
    subst hf
    have := Dict.get?_of_mem hnd (mem_isort.1 hm)
    rw [hg] at this
    injection this with this
    subst this
    rfl

/-- All rules are dictionaries: no key twice. -/
def RulesOk (a : Acl.Acl) : Prop := ∀ r ∈ a.rules, r.fields.keys.Nodup

theorem pins_setSrc_port {items : List MatchItem} {n m : Nat} (h : Pins fInPort n items) :
    Pins fInPort n (setSrc items m) := by
  unfold setSrc
  constructor
  · rw [mem_isort]
    refine List.mem_append_left _ (List.mem_filter.2 ⟨h.1, by simp [fInPort, fEthSrc]⟩)
  · intro i hi hf
    rw [mem_isort] at hi
    rcases List.mem_append.1 hi with hi | hi
    · exact h.2 i (List.mem_filter.1 hi).1 hf
    · simp only [List.mem_singleton] at hi
      subst hi
      exact absurd hf (by simp [fInPort, fEthSrc])

theorem pins_setSrc {items : List MatchItem} {m : Nat} : Pins fEthSrc m (setSrc items m) := by
  unfold setSrc
  constructor
  · rw [mem_isort]; simp
  · intro i hi hf
    rw [mem_isort] at hi
    rcases List.mem_append.1 hi with hi | hi
    · have := (List.mem_filter.1 hi).2
      simp at this
      exact absurd hf this
    · simpa using hi

theorem mem_macFlows (c : Cfg) (mac : Option Nat) (ms : List OfMsg) (fs : List FlowMod) (h : macFlows c mac ms = some fs)
    (f : FlowMod) (hf : f ∈ fs) :
    ∃ g items, .flow g ∈ ms ∧ withMac c mac g.mtch.items = some items ∧ f = { g with mtch := ⟨items, 0⟩ } := by
  induction ms generalizing fs with
  | nil =>
    simp only [macFlows, Option.some.injEq] at h
    subst h
    cases hf
  | cons m ms ih =>
    simp only [macFlows] at h
    obtain ⟨a, ha, h⟩ := Option.bind_eq_some_iff.1 h
    obtain ⟨b, hb, rfl⟩ := Option.map_eq_some_iff.1 h
    rcases List.mem_cons.1 hf with rfl | hf
    · cases m with
      | flow g =>
        simp only [macFlow] at ha
        obtain ⟨items, h1, h2⟩ := Option.map_eq_some_iff.1 ha
        exact ⟨g, items, by simp, h1, h2.symm⟩
      | _ => simp [macFlow] at ha
    · obtain ⟨g, items, h1, h2⟩ := ih b hb hf
      exact ⟨g, items, List.mem_cons_of_mem _ h1, h2⟩

/-- What is common to the flows of an ACL on an 802.1x port. -/
structure AclFlow (c : Cfg) (port : Nat) (mac : Option Nat) (f : FlowMod) : Prop where
  cmd : f.cmd = .add
  table : f.table = c.table.id
  inPort : Pins fInPort port f.mtch.items
  src : ∀ m, mac = some m → Pins fEthSrc m f.mtch.items
  prio : f.priority ≤ authPriority

theorem mem_addPortAcl {c : Cfg} (he : Acl.EncOk c.enc) {a : Acl.Acl} (hr : RulesOk a) {port : Nat} {mac : Option Nat}
    {fs : List FlowMod} (h : addPortAcl c a port mac = some fs) {f : FlowMod} (hf : f ∈ fs) : AclFlow c port mac f := by
  unfold addPortAcl at h
  split at h
  · cases h
  · obtain ⟨ms, h1, h2⟩ := Option.bind_eq_some_iff.1 h
    obtain ⟨g, items, hg, hi, rfl⟩ := mem_macFlows c mac ms fs h2 f hf
    rw [Acl.buildAcls_eq] at h1
    obtain ⟨_, k2, k3⟩ := Acl.mem_buildList _ _ _ _ _ h1
    simp only [List.flatMap_cons, List.flatMap_nil, List.append_nil] at k2
    -- a message without `flowdel` is an addition
    have hadd : g.cmd = .add := by
      have := Acl.mem_buildList_add h1 rfl g hg
      exact this
    obtain ⟨i, r, its, x, hr1, hr2, _, hgeq⟩ := k2 g hg hadd
    have hm : r ∈ a.rules := List.mem_of_getElem? hr1
    have hpin := pins_ruleMatch he (hr r hm) (n := port) rfl rfl hr2
    have hits : g.mtch.items = its := by rw [hgeq]; rfl
    have hitems : Pins fInPort port items ∧ ∀ m, mac = some m → Pins fEthSrc m items := by
      rw [hits] at hi
      unfold withMac at hi
      cases mac with
      | none =>
        simp only [Option.some.injEq] at hi
        subst hi
        exact ⟨hpin, by simp⟩
      | some m =>
        simp only at hi
        split at hi
        · simp only [Option.some.injEq] at hi
          subst hi
          refine ⟨pins_setSrc_port hpin, ?_⟩
          intro m' hm'
          injection hm' with hm'
          subst hm'
          exact pins_setSrc
        · cases hi
    refine ⟨hadd, by rw [hgeq]; rfl, hitems.1, hitems.2, ?_⟩
    show g.priority ≤ authPriority
    rw [hgeq]
    show Acl.prioOf _ _ _ ≤ _
    unfold Acl.prioOf
    split
    · exact Nat.le_refl _
    · exact Nat.sub_le _ _

end Faucet.Dot1x
