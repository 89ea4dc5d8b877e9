import Verif.Dot1x.Lemmas
import Verif.Acl.Ports

/-!
# 802.1x: who is let in

Statements about a switch that starts without flows in the port ACL table (but for a rule that drops everything) and lives
through any history of events.
-/

namespace Faucet.Dot1x
open Faucet.OF Faucet.FlowReorder

/-! ## Specification -/

/-- What ends a client's session: it logs off, fails to authenticate, or the port goes down. -/
def Ends (port mac : Nat) (e : Ev) : Prop := e = .logoff port mac ∨ e = .fail port mac ∨ e = .down port

/-- The client logged in and nothing has ended its session. -/
def LoggedIn (h : List Ev) (port mac : Nat) : Prop :=
  ∃ pre vlan filter post, h = pre ++ .login port mac vlan filter :: post ∧ ∀ e ∈ post, ¬ Ends port mac e

/-- The port came up and has not gone down. -/
def IsUp (h : List Ev) (port : Nat) : Prop := ∃ pre post, h = pre ++ .up port :: post ∧ .down port ∉ post

/-- The messages leave the port ACL table alone. -/
def Quiet (c : Cfg) (ms : List OfMsg) : Prop := ∀ m ∈ ms, ∀ s : Slot, s.table = c.table.id → ∀ b, m.onFlow s b = b

structure OtherOk (c : Cfg) (o : Other) : Prop where
  up : ∀ n, Quiet c (o.up n)
  down : ∀ n, Quiet c (o.down n)
  warm : ∀ n a b, Quiet c (o.warm n a b)

/-- What the configuration checks see to: ports are known by their number (`faucet/config_parser.py`), an 802.1x port has
no port ACLs (`faucet/dp.py` 460-464) and not both kinds of ACL (`faucet/port.py` 399-402), the NFV port is output only
(`faucet/dp.py` 467-471); it is taken not to be an 802.1x port itself. Rules are dictionaries. -/
structure CfgOk (c : Cfg) : Prop where
  enc : Acl.EncOk c.enc
  number : ∀ n p, c.ports.get? n = some p → p.number = n
  values : ∀ p ∈ c.ports.values, c.ports.get? p.number = some p
  noAcls : ∀ n p, c.ports.get? n = some p → p.dot1x = true → p.aclsIn = []
  oneKind : ∀ n p, c.ports.get? n = some p → p.dynAcl = true → p.dot1xAcl = false
  nfvOnly : ∀ p, c.ports.get? c.nfv = some p → p.outputOnly = true ∧ p.dot1x = false
  portRules : ∀ n p, c.ports.get? n = some p → ∀ a ∈ p.aclsIn, RulesOk a
  authRules : ∀ a, c.auth = some a → RulesOk a
  noauthRules : ∀ a, c.noauth = some a → RulesOk a
  aclRules : ∀ n a, c.acls.get? n = some a → RulesOk a

/-- The port ACL table at first: nothing but a rule that drops what no other rule takes. -/
def Fresh (c : Cfg) (s : St) : Prop :=
  ∀ slot b, s.sw.flows slot = some b → slot.table = c.table.id → slot.items = [] ∧ slot.priority = 0 ∧ b.inst = []

/-! ## The messages of a port -/

/-- A flow message for the port ACL table that names the port. -/
def PortMsg (c : Cfg) (q : Nat) (m : OfMsg) : Prop :=
  ∃ f, m = .flow f ∧ f.cmd ≠ .modifyStrict ∧ f.table = c.table.id ∧ Pins fInPort q f.mtch.items

theorem pins_macItems_port (p m : Nat) : Pins fInPort p (macItems p m) := by
  constructor
  · simp [macItems]
  · intro i hi hf
    simp only [macItems, List.mem_cons, List.not_mem_nil, or_false] at hi
    rcases hi with rfl | rfl
    · rfl
    · exact absurd hf (by simp [fInPort, fEthSrc])

theorem pins_macItems_src (p m : Nat) : Pins fEthSrc m (macItems p m) := by
  constructor
  · simp [macItems]
  · intro i hi hf
    simp only [macItems, List.mem_cons, List.not_mem_nil, or_false] at hi
    rcases hi with rfl | rfl
    · exact absurd hf (by simp [fInPort, fEthSrc])
    · rfl

theorem pins_fromItems (p : Nat) : Pins fInPort p (fromItems p) := by
  constructor
  · simp [fromItems]
  · intro i hi hf
    simp only [fromItems, List.mem_cons, List.not_mem_nil, or_false] at hi
    rcases hi with rfl | rfl
    · rfl
    · exact absurd hf (by simp [fInPort, fEthType])

theorem pins_toItems (p m : Nat) : Pins fInPort p (toItems p m) := by
  constructor
  · simp [toItems]
  · intro i hi hf
    simp only [toItems, List.mem_cons, List.not_mem_nil, or_false] at hi
    rcases hi with rfl | rfl | rfl
    · rfl
    · exact absurd hf (by simp [fInPort, fEthSrc])
    · exact absurd hf (by simp [fInPort, fEthType])

theorem pins_mabItems (p : Nat) : Pins fInPort p (mabItems p) := by
  constructor
  · simp [mabItems]
  · intro i hi hf
    simp only [mabItems, List.mem_cons, List.not_mem_nil, or_false] at hi
    rcases hi with rfl | rfl | rfl | rfl | rfl <;> first | rfl | exact absurd hf (by simp [fInPort, fEthType, fIpProto, fUdpSrc, fUdpDst])

theorem mem_delPortAcl {c : Cfg} (he : Acl.EncOk c.enc) {a : Acl.Acl} (hr : RulesOk a) {port : Nat} {mac : Option Nat}
    {ms : List OfMsg} (h : delPortAcl c a port mac = some ms) {m : OfMsg} (hm : m ∈ ms) :
    ∃ fs f, addPortAcl c a port mac = some fs ∧ f ∈ fs ∧ AclFlow c port mac f ∧
      m = c.table.flowdel f.mtch.items f.priority := by
  unfold delPortAcl at h
  obtain ⟨fs, h1, rfl⟩ := Option.map_eq_some_iff.1 h
  obtain ⟨f, h2, rfl⟩ := List.mem_map.1 hm
  exact ⟨fs, f, h1, h2, mem_addPortAcl he hr h1 h2, rfl⟩

/-- A deletion of flows that name the port. -/
def PortDel (c : Cfg) (q : Nat) (m : OfMsg) : Prop := PortMsg c q m ∧ ∀ f, m = .flow f → f.cmd ≠ .add

theorem del_portMsg {c : Cfg} {q : Nat} {items : List MatchItem} {prio : Nat} {strict : Bool} (h : Pins fInPort q items) :
    PortDel c q (c.table.flowdel items prio none strict) := by
  refine ⟨⟨_, rfl, ?_, rfl, h⟩, ?_⟩
  · cases strict <;> simp
  · intro f hf
    simp only [Table.flowdel, OfMsg.flow.injEq] at hf
    subst hf
    cases strict <;> simp

theorem mem_delUnauth {c : Cfg} (ok : CfgOk c) {p : PortConf} {ms : List OfMsg} (h : delUnauth c p = some ms) {m : OfMsg}
    (hm : m ∈ ms) : PortDel c p.number m ∧ p.dot1xAcl = true ∧ ∃ a fs f, c.noauth = some a ∧
      addPortAcl c a p.number none = some fs ∧ f ∈ fs ∧ m = c.table.flowdel f.mtch.items f.priority := by
  unfold delUnauth at h
  split at h
  · rename_i hd
    obtain ⟨a, ha, h⟩ := Option.bind_eq_some_iff.1 h
    obtain ⟨fs, f, h1, h2, h3, rfl⟩ := mem_delPortAcl ok.enc (ok.noauthRules a ha) h hm
    exact ⟨del_portMsg h3.inPort, hd, a, fs, f, ha, h1, h2, rfl⟩
  · injection h with h
    subst h
    cases hm

theorem mem_addUnauth {c : Cfg} (ok : CfgOk c) {p : PortConf} {ms : List OfMsg} (h : addUnauth c p = some ms) {m : OfMsg}
    (hm : m ∈ ms) : p.dot1xAcl = true ∧ ∃ a fs f, c.noauth = some a ∧ addPortAcl c a p.number none = some fs ∧ f ∈ fs ∧
      m = .flow f ∧ AclFlow c p.number none f := by
  unfold addUnauth at h
  split at h
  · rename_i hd
    obtain ⟨a, ha, h⟩ := Option.bind_eq_some_iff.1 h
    obtain ⟨fs, h1, rfl⟩ := Option.map_eq_some_iff.1 h
    obtain ⟨f, hf, rfl⟩ := List.mem_map.1 hm
    exact ⟨hd, a, fs, f, ha, h1, hf, rfl, mem_addPortAcl ok.enc (ok.noauthRules a ha) h1 hf⟩
  · injection h with h
    subst h
    cases hm

theorem mem_addAuth {c : Cfg} (ok : CfgOk c) {p : PortConf} {mac : Nat} {filter : Option Nat} {ms : List OfMsg}
    (h : addAuth c p mac filter = some ms) {m : OfMsg} (hm : m ∈ ms) :
    ∃ f, m = .flow f ∧ AclFlow c p.number (some mac) f := by
  unfold addAuth at h
  split at h
  · rename_i a ha
    have hr : RulesOk a := by
      split at ha
      · obtain ⟨n, _, hn⟩ := Option.bind_eq_some_iff.1 ha
        exact ok.aclRules n a hn
      · cases ha
    obtain ⟨fs, h1, rfl⟩ := Option.map_eq_some_iff.1 h
    obtain ⟨f, hf, rfl⟩ := List.mem_map.1 hm
    exact ⟨f, rfl, mem_addPortAcl ok.enc hr h1 hf⟩
  · split at h
    · obtain ⟨a, ha, h⟩ := Option.bind_eq_some_iff.1 h
      obtain ⟨fs, h1, rfl⟩ := Option.map_eq_some_iff.1 h
      obtain ⟨f, hf, rfl⟩ := List.mem_map.1 hm
      exact ⟨f, rfl, mem_addPortAcl ok.enc (ok.authRules a ha) h1 hf⟩
    · injection h with h
      subst h
      simp only [List.mem_singleton] at hm
      subst hm
      refine ⟨_, rfl, rfl, rfl, pins_macItems_port _ _, ?_, Nat.le_refl _⟩
      intro m hm
      injection hm with hm
      subst hm
      exact pins_macItems_src _ _

theorem mem_delAuth {c : Cfg} (ok : CfgOk c) {p : PortConf} {mac : Nat} {ms : List OfMsg} (h : delAuth c p mac = some ms)
    {m : OfMsg} (hm : m ∈ ms) :
    PortDel c p.number m ∧ ∃ f, m = .flow f ∧ Pins fEthSrc mac f.mtch.items ∧
      (p.dot1xAcl = false → p.dynAcl = false → m = delAuthedMac c p.number mac true) := by
  unfold delAuth at h
  split at h
  · rename_i hd
    obtain ⟨a, ha, h⟩ := Option.bind_eq_some_iff.1 h
    obtain ⟨fs, f, h1, h2, h3, rfl⟩ := mem_delPortAcl ok.enc (ok.authRules a ha) h hm
    refine ⟨del_portMsg h3.inPort, _, rfl, h3.src _ rfl, ?_⟩
    intro hc
    rw [hd] at hc
    cases hc
  · split at h
    · rename_i hd
      injection h with h
      subst h
      simp only [List.mem_singleton] at hm
      subst hm
      refine ⟨del_portMsg (pins_macItems_port _ _), _, rfl, pins_macItems_src _ _, ?_⟩
      intro _ hc
      rw [hd] at hc
      cases hc
    · injection h with h
      subst h
      simp only [List.mem_singleton] at hm
      subst hm
      exact ⟨del_portMsg (pins_macItems_port _ _), _, rfl, pins_macItems_src _ _, fun _ _ => rfl⟩

/-- The deletes of a logoff remove whatever a login of the client installed. -/
theorem delAuth_kills {c : Cfg} (ok : CfgOk c) {p : PortConf} (hone : p.dynAcl = true → p.dot1xAcl = false) {mac : Nat}
    {filter : Option Nat} {ds ms : List OfMsg} (hd : delAuth c p mac = some ds) (ha : addAuth c p mac filter = some ms)
    {f : FlowMod} (hf : .flow f ∈ ms) (b : Body) : ∃ d ∈ ds, d.kills f.slot b = true := by
  obtain ⟨g, hg, hacl⟩ := mem_addAuth ok ha hf
  injection hg with hg
  subst hg
  have hslot : f.slot.table = c.table.id := hacl.table
  unfold delAuth at hd
  unfold addAuth at ha
  by_cases h1 : p.dot1xAcl = true
  · rw [if_pos h1] at hd
    have h2 : p.dynAcl = false := by
      cases h2 : p.dynAcl
      · rfl
      · rw [hone h2] at h1; cases h1
    rw [h2] at ha
    simp only [Bool.false_eq_true, if_false] at ha
    rw [if_pos h1] at ha
    obtain ⟨a, e1, hd⟩ := Option.bind_eq_some_iff.1 hd
    obtain ⟨a', e2, ha⟩ := Option.bind_eq_some_iff.1 ha
    rw [e1] at e2
    injection e2 with e2
    subst e2
    unfold delPortAcl at hd
    obtain ⟨fs, k1, rfl⟩ := Option.map_eq_some_iff.1 hd
    obtain ⟨fs', k2, rfl⟩ := Option.map_eq_some_iff.1 ha
    rw [k1] at k2
    injection k2 with k2
    subst k2
    obtain ⟨g, hg, he⟩ := List.mem_map.1 hf
    injection he with he
    subst he
    refine ⟨_, List.mem_map.2 ⟨g, hg, rfl⟩, ?_⟩
    simp only [Table.flowdel, OfMsg.kills, FlowMod.kills, FlowMod.tableOk, FlowMod.outPortOk, Bool.false_eq_true, if_false]
    rw [hslot]
    have : coversItems g.mtch.items g.slot.items = true := coversItems_of_subset (fun i hi => hi)
    simp [this]
  · rw [if_neg h1] at hd
    by_cases h2 : p.dynAcl = true
    · rw [if_pos h2] at hd
      injection hd with hd
      subst hd
      refine ⟨_, List.mem_singleton.2 rfl, ?_⟩
      simp only [delAuthedMac, Table.flowdel, OfMsg.kills, FlowMod.kills, FlowMod.tableOk, FlowMod.outPortOk, Bool.false_eq_true, if_false]
      rw [hslot]
      have : coversItems (macItems p.number mac) f.slot.items = true := by
        apply coversItems_of_subset
        intro i hi
        simp only [macItems, List.mem_cons, List.not_mem_nil, or_false] at hi
        rcases hi with rfl | rfl
        · exact hacl.inPort.1
        · exact (hacl.src _ rfl).1
      simp [this]
    · rw [if_neg h2] at hd
      injection hd with hd
      subst hd
      have h3 : p.dynAcl = false := by simpa using h2
      rw [h3] at ha
      simp only [Bool.false_eq_true, if_false] at ha
      rw [if_neg h1] at ha
      injection ha with ha
      subst ha
      refine ⟨_, List.mem_singleton.2 rfl, ?_⟩
      simp only [List.mem_singleton, addAuthedMac, Table.flowadd, OfMsg.flow.injEq] at hf
      subst hf
      simp [delAuthedMac, Table.flowdel, OfMsg.kills, FlowMod.kills, FlowMod.tableOk, FlowMod.outPortOk, FlowMod.slot]

theorem mem_flowPair {c : Cfg} {q : Nat} {m : OfMsg} (h : m ∈ flowPair c q) :
    (∃ f, m = .flow f ∧ f.cmd = .add ∧ f.slot = ⟨c.table.id, overridePriority, fromItems q⟩ ∧
      f.body = ⟨[.apply [.setField fEthDst (c.ident q), .output c.nfv]], c.table.cookie, 0, 0⟩) ∨
    (∃ f, m = .flow f ∧ f.cmd = .add ∧ f.slot = ⟨c.table.id, overridePriority, toItems c.nfv (c.ident q)⟩ ∧
      f.body = ⟨[.apply [.setField fEthSrc eapolDst, .output q]], c.table.cookie, 0, 0⟩) := by
  simp only [flowPair, List.mem_cons, List.not_mem_nil, or_false] at h
  rcases h with rfl | rfl
  · left; exact ⟨_, rfl, rfl, rfl, rfl⟩
  · right; exact ⟨_, rfl, rfl, rfl, rfl⟩

theorem mem_mabFlow {c : Cfg} {q : Nat} : ∃ f, mabFlow c q = .flow f ∧ f.cmd = .add ∧
    f.slot = ⟨c.table.id, mabPriority, mabItems q⟩ ∧
    f.body = ⟨[.apply [.setField fEthDst (c.ident q), .output c.nfv]], c.table.cookie, 0, 0⟩ := ⟨_, rfl, rfl, rfl, rfl⟩

/-- The flow messages of the ACL manager for a port that is added. -/
theorem mem_aclAdd {c : Cfg} (ok : CfgOk c) {n : Nat} {p : PortConf} (hp : c.ports.get? n = some p) {ms : List OfMsg}
    (h : Acl.addPort c.enc (aclMgr c) (aclPort p) = some ms) {m : OfMsg} (hm : m ∈ ms) :
    p.dot1x = false ∧ p.outputOnly = false ∧ ((∃ g, m = .group g) ∨ (∃ f, m = .flow f ∧ f.cmd = .add ∧
      f.table = c.table.id ∧ Pins fInPort n f.mtch.items)) := by
  have hnum := ok.number n p hp
  unfold Acl.addPort at h
  have hpa : Acl.portAclsAllowed (aclMgr c) (aclPort p) = if p.outputOnly then none else some c.table := by
    unfold Acl.portAclsAllowed
    simp only [aclMgr, aclPort, List.isEmpty_nil, Bool.true_and]
    cases p.outputOnly <;> rfl
  rw [hpa] at h
  cases ho : p.outputOnly with
  | true =>
    rw [ho] at h
    simp only [if_true, Option.some.injEq] at h
    subst h
    cases hm
  | false =>
    rw [ho] at h
    simp only [Bool.false_eq_true, if_false] at h
    have haclsIn : (aclPort p).aclsIn = p.aclsIn := rfl
    have hd1x : (aclPort p).dot1x = p.dot1x := rfl
    have hnumber : (aclPort p).number = n := hnum
    rw [haclsIn, hd1x, hnumber] at h
    by_cases ha : p.aclsIn ≠ []
    · rw [if_pos ha] at h
      have hd : p.dot1x = false := by
        cases hd : p.dot1x
        · rfl
        · exact absurd (ok.noAcls n p hp hd) ha
      refine ⟨hd, rfl, ?_⟩
      rw [Acl.buildAcls_eq] at h
      obtain ⟨_, k2, k3⟩ := Acl.mem_buildList _ _ _ _ _ h
      by_cases hf : ∃ f, m = .flow f
      · right
        obtain ⟨f, rfl⟩ := hf
        have hadd := Acl.mem_buildList_add h rfl f hm
        obtain ⟨i, r, its, x, hr1, hr2, _, hgeq⟩ := k2 f hm hadd
        have hr : r ∈ p.aclsIn.flatMap (·.rules) := List.mem_of_getElem? hr1
        obtain ⟨a, ha', hra⟩ := List.mem_flatMap.1 hr
        have hpin := pins_ruleMatch ok.enc (ok.portRules n p hp a ha' r hra) (n := n) (by simp [Acl.portCtx, hnumber]) rfl hr2
        exact ⟨f, rfl, hadd, by rw [hgeq]; rfl, by rw [hgeq]; exact hpin⟩
      · left
        rcases Acl.mem_buildList_kind h m hm with hg | hg
        · exact hg
        · exact absurd hg hf
    · rw [if_neg ha] at h
      cases hd : p.dot1x with
      | true =>
        rw [hd] at h
        simp only [Bool.not_true, Bool.false_eq_true, if_false, Option.some.injEq] at h
        subst h
        cases hm
      | false =>
        rw [hd] at h
        simp only [Bool.not_false, if_true, Option.some.injEq] at h
        subst h
        simp only [List.mem_singleton] at hm
        subst hm
        refine ⟨rfl, rfl, .inr ⟨_, rfl, rfl, rfl, ?_, ?_⟩⟩
        · show _ ∈ [Acl.inPortItem n]
          simp [Acl.inPortItem]
        · intro i hi _
          have hi : i ∈ [Acl.inPortItem n] := hi
          simpa [Acl.inPortItem] using hi

theorem mem_aclDel {c : Cfg} {p : PortConf} {m : OfMsg} (hm : m ∈ Acl.delPort (aclMgr c) (aclPort p)) :
    PortDel c p.number m ∧ m = c.table.flowdel [Acl.inPortItem p.number] Acl.aclPriority := by
  obtain ⟨t, ht, rfl⟩ := Acl.mem_delPort hm
  simp only [aclMgr, Option.some.injEq] at ht
  subst ht
  refine ⟨del_portMsg ?_, rfl⟩
  constructor
  · show _ ∈ [Acl.inPortItem p.number]
    simp [Acl.inPortItem]
  · intro i hi _
    simpa [Acl.inPortItem, aclPort] using hi

theorem aclDel_mem {c : Cfg} {p : PortConf} (h : p.outputOnly = false) :
    c.table.flowdel [Acl.inPortItem p.number] Acl.aclPriority ∈ Acl.delPort (aclMgr c) (aclPort p) := by
  unfold Acl.delPort Acl.portAclsAllowed
  simp [aclMgr, aclPort, h]

/-! ## Tameness -/

theorem tame_quiet {c : Cfg} {ms : List OfMsg} (h : Quiet c ms) {m : OfMsg} (hm : m ∈ ms) {s : Slot}
    (hs : s.table = c.table.id) : Tame m s := .inl (h m hm s hs)

theorem tame_port {c : Cfg} {q : Nat} {m : OfMsg} (h : PortMsg c q m) (s : Slot) : Tame m s := by
  right
  intro f hf
  obtain ⟨g, rfl, hc, _⟩ := h
  injection hf with hf
  subst hf
  exact hc

theorem tame_add {f : FlowMod} (h : f.cmd = .add) (s : Slot) : Tame (.flow f) s := by
  right
  intro g hg
  injection hg with hg
  subst hg
  rw [h]
  decide

theorem tame_group (g : GroupMod) (s : Slot) : Tame (.group g) s := by
  right
  intro f hf
  cases hf

theorem quiet_not_added {c : Cfg} {ms : List OfMsg} (h : Quiet c ms) {f : FlowMod} (hm : .flow f ∈ ms) (hc : f.cmd = .add)
    (hs : f.slot.table = c.table.id) : False := by
  have := h _ hm f.slot hs none
  simp [OfMsg.onFlow, hc] at this

end Faucet.Dot1x
