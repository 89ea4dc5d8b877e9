import Verif.Dot1x.Inv

/-! # C47, C59: what the switch does with the packets of clients -/

namespace Faucet.Dot1x
open Faucet.OF Faucet.FlowReorder

/-- Two names for one field are one value. -/
theorem pins_unique {field v w : Nat} {items : List MatchItem} (h1 : Pins field v items) (h2 : Pins field w items) : v = w := by
  have := h1.2 _ h2.1 rfl
  simp at this
  exact this.symm

theorem aclFlow_slot {c : Cfg} {q : Nat} {mac : Option Nat} {f : FlowMod} {s : Slot} (h : AclFlow c q mac f) (hs : f.slot = s) :
    Pins fInPort q s.items ∧ (∀ m, mac = some m → Pins fEthSrc m s.items) ∧ s.priority ≤ authPriority := by
  subst hs
  exact ⟨h.inPort, h.src, h.prio⟩

/-- The slot names at most one port. -/
theorem Known.inPort {c : Cfg} (ok : CfgOk c) {h : List Ev} {s : Slot} {b : Body} (k : Known c h s b) {p : Nat}
    {pc : PortConf} (hp : c.ports.get? p = some pc) (hdot : pc.dot1x = true) (pkt : Pkt) (hin : pkt.hdr fInPort = some p)
    (hh : hitsAll s.items pkt = true) :
    (s.items = [] ∧ s.priority = 0 ∧ b.inst = []) ∨
    (s = ⟨c.table.id, overridePriority, fromItems p⟩ ∧
      b = ⟨[.apply [.setField fEthDst (c.ident p), .output c.nfv]], c.table.cookie, 0, 0⟩) ∨
    (pc.mab = true ∧ s = ⟨c.table.id, mabPriority, mabItems p⟩ ∧
      b = ⟨[.apply [.setField fEthDst (c.ident p), .output c.nfv]], c.table.cookie, 0, 0⟩) ∨
    (pc.dot1xAcl = true ∧ ∃ a fs f, c.noauth = some a ∧ addPortAcl c a p none = some fs ∧ f ∈ fs ∧ f.slot = s ∧ f.body = b) ∨
    (∃ m filter ms f, (LoggedIn h p m ∨ pc.lacp = true ∨ pc.outputOnly = true) ∧ addAuth c pc m filter = some ms ∧
      .flow f ∈ ms ∧ f.slot = s ∧ f.body = b ∧ AclFlow c p (some m) f) := by
  have huniq : ∀ q, Pins fInPort q s.items → q = p := by
    intro q hq
    have := pins_hit hq (by decide) (by decide) hh
    rw [hin] at this
    injection this with this
    exact this.symm
  cases k with
  | base h1 h2 h3 => exact .inl ⟨h1, h2, h3⟩
  | port q pq h1 h2 h3 h4 =>
    have := huniq q h4
    subst this
    rw [hp] at h1
    injection h1 with h1
    subst h1
    rw [hdot] at h2
    cases h2
  | pair q pq h1 h2 f h3 h4 h5 =>
    rcases mem_flowPair h3 with ⟨g, hg, _, k1, k2⟩ | ⟨g, hg, _, k1, k2⟩
    · injection hg with hg
      subst hg
      rw [h4] at k1
      rw [h5] at k2
      have := huniq q (by rw [k1]; exact pins_fromItems q)
      subst this
      exact .inr (.inl ⟨k1, k2⟩)
    · injection hg with hg
      subst hg
      rw [h4] at k1
      have := huniq c.nfv (by rw [k1]; exact pins_toItems _ _)
      subst this
      rw [(ok.nfvOnly pc hp).2] at hdot
      cases hdot
  | mab q pq h1 h2 h3 f h4 h5 h6 =>
    obtain ⟨g, hg, _, k1, k2⟩ := mem_mabFlow (c := c) (q := q)
    rw [hg] at h4
    injection h4 with h4
    subst h4
    rw [h5] at k1
    rw [h6] at k2
    have := huniq q (by rw [k1]; exact pins_mabItems q)
    subst this
    rw [hp] at h1
    injection h1 with h1
    subst h1
    exact .inr (.inr (.inl ⟨h3, k1, k2⟩))
  | noauth q pq h1 h2 h3 a fs f h4 h5 h6 h7 h8 =>
    have hf := aclFlow_slot (mem_addPortAcl ok.enc (ok.noauthRules a h4) h5 h6) h7
    have := huniq q hf.1
    subst this
    rw [hp] at h1
    injection h1 with h1
    subst h1
    exact .inr (.inr (.inr (.inl ⟨h3, a, fs, f, h4, h5, h6, h7, h8⟩)))
  | auth q pq h1 h2 m h3 filter ms f h4 h5 h6 h7 =>
    obtain ⟨g, hg, hacl⟩ := mem_addAuth ok h4 h5
    injection hg with hg
    subst hg
    rw [ok.number q pq h1] at hacl
    have := huniq q (aclFlow_slot hacl h6).1
    subst this
    rw [hp] at h1
    injection h1 with h1
    subst h1
    exact .inr (.inr (.inr (.inr ⟨m, filter, ms, f, h3, h4, h5, h6, h7, hacl⟩)))

/-- **C47.** Once a client's session has ended (or before it begins), no rule of the port ACL table takes packets of this
client on this port because of the client: every rule that takes such a packet drops it, redirects EAPOL or DHCP to the
authenticator, or is a rule of the ACL for those who are not authenticated. -/
theorem logged_out_rules {c : Cfg} (ok : CfgOk c) {o : Other} (oo : OtherOk c o) {st0 st : St} (fresh : Fresh c st0)
    {h : List Ev} (hr : run c o st0 h = some st) {p mac : Nat} {pc : PortConf} (hp : c.ports.get? p = some pc)
    (hdot : pc.dot1x = true) (hl : pc.lacp = false) (hoo : pc.outputOnly = false) (out : ¬ LoggedIn h p mac)
    {pkt : Pkt} (hin : pkt.hdr fInPort = some p) (hsrc : pkt.hdr fEthSrc = some mac)
    {s : Slot} {b : Body} (hit : Hit st.sw c.table.id pkt s b) :
    b.inst = [] ∨
    (pkt.hdr fEthType = some ethEapol ∧ b.inst = [.apply [.setField fEthDst (c.ident p), .output c.nfv]]) ∨
    (pc.mab = true ∧ pkt.hdr fUdpDst = some 67 ∧ b.inst = [.apply [.setField fEthDst (c.ident p), .output c.nfv]]) ∨
    (pc.dot1xAcl = true ∧ ∃ a fs f, c.noauth = some a ∧ addPortAcl c a p none = some fs ∧ f ∈ fs ∧ f.inst = b.inst ∧
      hitsAll f.mtch.items pkt = true) := by
  have hk := inv_run ok oo fresh h hr s b hit.present hit.table
  rcases hk.inPort ok hp hdot pkt hin hit.hits with ⟨_, _, h3⟩ | ⟨h1, h2⟩ | ⟨h1, h2, h3⟩ | ⟨h1, a, fs, f, h2, h3, h4, h5, h6⟩ |
    ⟨m, filter, ms, f, h1, h2, h3, h4, h5, h6⟩
  · exact .inl h3
  · refine .inr (.inl ⟨?_, by rw [h2]⟩)
    have hh := hit.hits
    rw [h1] at hh
    simp only [hitsAll, fromItems, List.all_cons, List.all_nil, Bool.and_true, Bool.and_eq_true] at hh
    exact (hits_exact (by decide) (by decide)).1 hh.2
  · refine .inr (.inr (.inl ⟨h1, ?_, by rw [h3]⟩))
    have hh := hit.hits
    rw [h2] at hh
    simp only [hitsAll, mabItems, List.all_cons, List.all_nil, Bool.and_true, Bool.and_eq_true] at hh
    exact (hits_exact (by decide) (by decide)).1 hh.2.2.2.2
  · refine .inr (.inr (.inr ⟨h1, a, fs, f, h2, h3, h4, by rw [← h6]; rfl, ?_⟩))
    have hh := hit.hits
    rw [← h5] at hh
    exact hh
  · exfalso
    have hm := pins_hit ((aclFlow_slot h6 h4).2.1 m rfl) (by decide) (by decide) hit.hits
    rw [hsrc] at hm
    injection hm with hm
    subst hm
    rcases h1 with h1 | h1 | h1
    · exact out h1
    · rw [hl] at h1; cases h1
    · rw [hoo] at h1; cases h1

theorem runActs_nil (g : Nat → Option (List (List Action))) (p : Pkt) : runActs g [] p = ([], p) := rfl

/-- **C47**, on a port without ACL for those who are not authenticated: whatever the client sends, but for EAPOL and (with
MAC authentication bypass) DHCP, comes out nowhere. -/
theorem logged_out_dropped {c : Cfg} (ok : CfgOk c) {o : Other} (oo : OtherOk c o) {st0 st : St} (fresh : Fresh c st0)
    {h : List Ev} (hr : run c o st0 h = some st) {p mac : Nat} {pc : PortConf} (hp : c.ports.get? p = some pc)
    (hdot : pc.dot1x = true) (hl : pc.lacp = false) (hoo : pc.outputOnly = false) (hacl : pc.dot1xAcl = false)
    (out : ¬ LoggedIn h p mac) {pkt : Pkt} (hin : pkt.hdr fInPort = some p) (hsrc : pkt.hdr fEthSrc = some mac)
    (heap : pkt.hdr fEthType ≠ some ethEapol) (hmab : pc.mab = true → pkt.hdr fUdpDst ≠ some 67)
    {es : List Emit} (hpr : Proc st.sw c.table.id pkt es) : es = [] := by
  have key : ∀ s b, Hit st.sw c.table.id pkt s b → b.inst = [] := by
    intro s b hit
    rcases logged_out_rules ok oo fresh hr hp hdot hl hoo out hin hsrc hit with h1 | ⟨h1, _⟩ | ⟨h1, h2, _⟩ | ⟨h1, _⟩
    · exact h1
    · exact absurd h1 heap
    · exact absurd h2 (hmab h1)
    · rw [hacl] at h1; cases h1
  cases hpr with
  | miss _ => rfl
  | done hit _ =>
    rw [key _ _ hit]
    rfl
  | next hit hg _ =>
    rw [key _ _ hit] at hg
    simp [instGoto] at hg

/-- **C47**, on any 802.1x port: no rule made for the client is left. The only rules for the port that name the client's
address are rules of the ACL for those who are not authenticated, and on a port without that ACL there are none. -/
theorem no_rule_for_client {c : Cfg} (ok : CfgOk c) {o : Other} (oo : OtherOk c o) {st0 st : St} (fresh : Fresh c st0)
    {h : List Ev} (hr : run c o st0 h = some st) {p mac : Nat} {pc : PortConf} (hp : c.ports.get? p = some pc)
    (hdot : pc.dot1x = true) (hl : pc.lacp = false) (hoo : pc.outputOnly = false) (out : ¬ LoggedIn h p mac)
    {s : Slot} {b : Body} (present : st.sw.flows s = some b) (table : s.table = c.table.id)
    (hin : (⟨fInPort, p, none⟩ : MatchItem) ∈ s.items) (hsrc : (⟨fEthSrc, mac, none⟩ : MatchItem) ∈ s.items) :
    pc.dot1xAcl = true ∧ ∃ a fs f, c.noauth = some a ∧ addPortAcl c a p none = some fs ∧ f ∈ fs ∧ f.slot = s ∧ f.body = b := by
  cases inv_run ok oo fresh h hr s b present table with
  | base h1 => rw [h1] at hin; cases hin
  | port q pq h1 h2 h3 h4 =>
    have := h4.2 _ hin rfl
    simp at this
    subst this
    rw [hp] at h1
    injection h1 with h1
    subst h1
    rw [hdot] at h2
    cases h2
  | pair q pq h1 h2 f h3 h4 h5 =>
    rcases mem_flowPair h3 with ⟨g, hg, _, k1, k2⟩ | ⟨g, hg, _, k1, k2⟩
    · injection hg with hg
      subst hg
      rw [h4] at k1
      rw [k1] at hsrc
      simp [fromItems, fEthSrc, fInPort, fEthType] at hsrc
    · injection hg with hg
      subst hg
      rw [h4] at k1
      rw [k1] at hin
      have := (pins_toItems c.nfv (c.ident q)).2 _ hin rfl
      simp at this
      subst this
      rw [(ok.nfvOnly pc hp).2] at hdot
      cases hdot
  | mab q pq h1 h2 h3 f h4 h5 h6 =>
    obtain ⟨g, hg, _, k1, k2⟩ := mem_mabFlow (c := c) (q := q)
    rw [hg] at h4
    injection h4 with h4
    subst h4
    rw [h5] at k1
    rw [k1] at hsrc
    simp [mabItems, fEthSrc, fInPort, fEthType, fIpProto, fUdpSrc, fUdpDst] at hsrc
  | noauth q pq h1 h2 h3 a fs f h4 h5 h6 h7 h8 =>
    have hf := aclFlow_slot (mem_addPortAcl ok.enc (ok.noauthRules a h4) h5 h6) h7
    have := hf.1.2 _ hin rfl
    simp at this
    subst this
    rw [hp] at h1
    injection h1 with h1
    subst h1
    exact ⟨h3, a, fs, f, h4, h5, h6, h7, h8⟩
  | auth q pq h1 h2 m h3 filter ms f h4 h5 h6 h7 =>
    exfalso
    obtain ⟨g, hg, hacl⟩ := mem_addAuth ok h4 h5
    injection hg with hg
    subst hg
    rw [ok.number q pq h1] at hacl
    have hf := aclFlow_slot hacl h6
    have e1 := hf.1.2 _ hin rfl
    have e2 := (hf.2.1 m rfl).2 _ hsrc rfl
    simp at e1 e2
    subst e1 e2
    rw [hp] at h1
    injection h1 with h1
    subst h1
    rcases h3 with h3 | h3 | h3
    · exact out h3
    · rw [hl] at h3; cases h3
    · rw [hoo] at h3; cases h3

/-! ## Clients that are logged in stay so -/

/-- The rule that lets a client in. -/
def clientSlot (c : Cfg) (p mac : Nat) : Slot := ⟨c.table.id, authPriority, macItems p mac⟩
def clientBody (c : Cfg) : Body := ⟨[.goto c.vlanTable], c.table.cookie, 0, 0⟩

theorem addAuthedMac_eq (c : Cfg) (p mac : Nat) : ∃ f, addAuthedMac c p mac = .flow f ∧ f.cmd = .add ∧
    f.slot = clientSlot c p mac ∧ f.body = clientBody c := ⟨_, rfl, rfl, rfl, rfl⟩

/-- Group messages do not touch rules without group. -/
theorem group_kills {g : GroupMod} {s : Slot} {b : Body} (h : ∀ i ∈ b.inst, ∀ as, i = .apply as → ∀ a ∈ as, ∀ n, a ≠ .group n) :
    (OfMsg.group g).kills s b = false := by
  obtain ⟨cmd, gid, bs⟩ := g
  have h1 : ∀ n, b.usesGroup n = false := by
    intro n
    unfold Body.usesGroup
    rw [List.any_eq_false]
    intro i hi
    cases i with
    | apply as =>
      simp only [List.any_eq_true, beq_iff_eq, exists_eq_right, Bool.not_eq_true, List.any_eq_false]
      intro hm
      exact h _ hi as rfl _ hm n rfl
    | _ => simp
  cases cmd with
  | add => cases gid <;> rfl
  | delete =>
    cases gid with
    | some n => exact h1 n
    | none =>
      simp only [OfMsg.kills]
      rw [List.any_eq_false]
      intro i hi
      cases i with
      | apply as =>
        simp only [Bool.not_eq_true, List.any_eq_false]
        intro a ha
        cases a <;> simp
        exact h _ hi as rfl _ ha _ rfl
      | _ => simp

/-- What a batch does to a rule that names a port other than the one the batch is about. -/
theorem keeps {c : Cfg} {ms : List OfMsg} {s : Slot} {b : Body} {p : Nat} (ht : s.table = c.table.id)
    (hp : Pins fInPort p s.items)
    (hb : ∀ i ∈ b.inst, ∀ as, i = .apply as → ∀ a ∈ as, ∀ n, a ≠ .group n)
    (hm : ∀ m ∈ ms, (∀ x, m.onFlow s x = x) ∨ (∃ g, m = .group g) ∨ (∃ q, q ≠ p ∧ PortMsg c q m) ∨
      (∃ f, m = .flow f ∧ f.cmd ≠ .modifyStrict ∧ f.kills s b = false ∧ (f.cmd = .add → f.slot = s → f.body = b)))
    (sw : Switch) (h : sw.flows s = some b) : (sw.execAll ms).flows s = some b := by
  refine persists ?_ ?_ ?_ sw h
  · intro m hmm
    rcases hm m hmm with h | ⟨g, rfl⟩ | ⟨q, _, h⟩ | ⟨f, rfl, h, _⟩
    · exact .inl h
    · exact tame_group g s
    · exact tame_port h s
    · refine .inr (fun g hg => ?_)
      injection hg with hg
      subst hg
      exact h
  · intro m hmm
    rcases hm m hmm with h | ⟨g, rfl⟩ | ⟨q, hq, f, rfl, _, _, h⟩ | ⟨f, rfl, _, h, _⟩
    · exact kills_of_quiet h b
    · exact group_kills hb
    · exact other_port_kills h hp hq b
    · exact h
  · intro f hf hc hs
    rcases hm _ hf with h | ⟨g, hg⟩ | ⟨q, hq, g, hg, _, _, h⟩ | ⟨g, hg, _, _, h⟩
    · have := h none
      simp [OfMsg.onFlow, hc, hs] at this
    · cases hg
    · injection hg with hg
      subst hg
      exact absurd hs (other_port_slot h hp hq)
    · injection hg with hg
      subst hg
      exact h hc hs

end Faucet.Dot1x
