import Verif.Dot1x.Sent

/-! # 802.1x: EAPOL reaches the authenticator (C59), and dynamic VLANs (C60) -/

namespace Faucet.Dot1x
open Faucet.OF Faucet.FlowReorder

theorem isUp_snoc (h : List Ev) (e : Ev) (p : Nat) :
    IsUp (h ++ [e]) p ↔ e = .up p ∨ (IsUp h p ∧ e ≠ .down p) := by
  constructor
  · rintro ⟨pre, post, heq, hpost⟩
    rcases List.eq_nil_or_concat post with rfl | ⟨post', x, rfl⟩
    · left
      have := List.append_inj' heq rfl
      simp only [List.cons.injEq, and_true] at this
      exact this.2
    · right
      have heq' : h ++ [e] = (pre ++ .up p :: post') ++ [x] := by simpa using heq
      have := List.append_inj' heq' rfl
      simp only [List.cons.injEq, and_true] at this
      obtain ⟨h1, h2⟩ := this
      subst h2
      refine ⟨⟨pre, post', h1, fun hy => hpost (by simp [hy])⟩, ?_⟩
      rintro rfl
      exact hpost (by simp)
  · rintro (rfl | ⟨⟨pre, post, rfl, hpost⟩, he⟩)
    · exact ⟨h, [], rfl, by simp⟩
    · refine ⟨pre, post ++ [e], by simp, ?_⟩
      intro hx
      rcases List.mem_append.1 hx with hx | hx
      · exact hpost hx
      · simp only [List.mem_singleton] at hx
        exact he hx.symm

theorem isUp_nil (p : Nat) : ¬ IsUp [] p := by
  rintro ⟨pre, post, h, _⟩
  simp at h

/-- No rule of the ACL for those who are not authenticated takes all EAPOL packets of the port: such a rule's deletion,
which is not strict, takes the redirection of EAPOL with it. -/
def NoCatchAll (c : Cfg) (p : Nat) (pc : PortConf) : Prop :=
  pc.dot1xAcl = true → ∀ a fs f, c.noauth = some a → addPortAcl c a p none = some fs → f ∈ fs →
    coversItems f.mtch.items (fromItems p) = false

def fromSlot (c : Cfg) (p : Nat) : Slot := ⟨c.table.id, overridePriority, fromItems p⟩
def fromBody (c : Cfg) (p : Nat) : Body := ⟨[.apply [.setField fEthDst (c.ident p), .output c.nfv]], c.table.cookie, 0, 0⟩
def toSlot (c : Cfg) (p : Nat) : Slot := ⟨c.table.id, overridePriority, toItems c.nfv (c.ident p)⟩
def toBody (c : Cfg) (p : Nat) : Body := ⟨[.apply [.setField fEthSrc eapolDst, .output p]], c.table.cookie, 0, 0⟩

theorem fromItems_noSrc (p : Nat) : ∀ i ∈ fromItems p, i.field ≠ fEthSrc := by
  intro i hi
  simp only [fromItems, List.mem_cons, List.not_mem_nil, or_false] at hi
  rcases hi with rfl | rfl <;> simp [fInPort, fEthType, fEthSrc]

theorem prio_lt : authPriority < overridePriority := by decide

theorem fromBody_plain (c : Cfg) (p : Nat) :
    ∀ i ∈ (fromBody c p).inst, ∀ as, i = .apply as → ∀ a ∈ as, ∀ n, a ≠ .group n := by
  intro i hi as h a ha n
  simp only [fromBody, List.mem_singleton] at hi
  subst hi
  injection h with h
  subst h
  simp only [List.mem_cons, List.not_mem_nil, or_false] at ha
  rcases ha with rfl | rfl <;> simp

theorem toBody_plain (c : Cfg) (p : Nat) :
    ∀ i ∈ (toBody c p).inst, ∀ as, i = .apply as → ∀ a ∈ as, ∀ n, a ≠ .group n := by
  intro i hi as h a ha n
  simp only [toBody, List.mem_singleton] at hi
  subst hi
  injection h with h
  subst h
  simp only [List.mem_cons, List.not_mem_nil, or_false] at ha
  rcases ha with rfl | rfl <;> simp

theorem spares_aclFlow {c : Cfg} {q : Nat} {mac : Option Nat} {f : FlowMod} (h : AclFlow c q mac f) {s : Slot} {b : Body}
    (hp : s.priority = overridePriority) : Spares (.flow f) s b := by
  refine spares_add h.cmd ?_
  intro he
  exfalso
  have := (aclFlow_slot h he).2.2
  have := prio_lt
  omega

/-- A delete of a client's rules. -/
theorem spares_delAuth {c : Cfg} (ok : CfgOk c) {p : PortConf} {mac : Nat} {ms : List OfMsg} (h : delAuth c p mac = some ms)
    {m : OfMsg} (hm : m ∈ ms) {s : Slot} {b : Body} (hs : ∀ i ∈ s.items, i.field ≠ fEthSrc) : Spares m s b := by
  obtain ⟨⟨⟨f, rfl, k1, _⟩, k2⟩, g, hg, hpin, _⟩ := mem_delAuth ok h hm
  injection hg with hg
  subst hg
  refine ⟨.inr ?_, ?_, ?_⟩
  · intro g hg
    injection hg with hg
    subst hg
    exact k1
  · have hcov := not_covers_absent hpin.1 hs
    have hne : f.mtch.items ≠ s.items := by
      intro he
      have := hpin.1
      rw [he] at this
      exact hs _ this rfl
    simp only [OfMsg.kills, FlowMod.kills]
    cases hc : f.cmd <;> simp [hcov, hne]
  · intro g hg hc
    exact absurd hc (k2 g hg)

theorem Sent.eapol {c : Cfg} (ok : CfgOk c) {e : Ev} {m : OfMsg} (h : Sent c e m) {p : Nat} {pc : PortConf}
    (hp : c.ports.get? p = some pc) (hdot : pc.dot1x = true) (hn : NoCatchAll c p pc) (hne : e ≠ .down p) :
    Spares m (fromSlot c p) (fromBody c p) := by
  rcases h.other ok hp hdot (s := fromSlot c p) (b := fromBody c p) rfl (pins_fromItems p) (fromBody_plain c p)
    with h | h | ⟨f, rfl, hc, hs, hb⟩ | h | ⟨_, f, rfl, hx⟩ | ⟨hx, a, fs, f, k1, k2, k3, rfl⟩ | ⟨mac', v, filter, ms, he, ha, hm⟩ |
      ⟨mac', ms, he, hd, hm⟩
  · exact h
  · exact absurd h hne
  · exact spares_add hc (fun _ => hb)
  · subst h
    obtain ⟨f, k1, k2, k3, _⟩ := mem_mabFlow (c := c) (q := p)
    rw [k1]
    refine spares_add k2 ?_
    intro he
    rw [k3] at he
    simp [fromSlot, fromItems, mabItems] at he
  · exact spares_aclFlow hx rfl
  · exact spares_loose (hn hx a fs f k1 k2 k3)
  · obtain ⟨f, rfl, hf⟩ := mem_addAuth ok ha hm
    exact spares_aclFlow hf rfl
  · exact spares_delAuth ok hd hm (fromItems_noSrc p)

theorem flowPair_mem (c : Cfg) (p : Nat) : ∃ f g, flowPair c p = [.flow f, .flow g] ∧ f.cmd = .add ∧ g.cmd = .add ∧
    f.slot = fromSlot c p ∧ f.body = fromBody c p ∧ g.slot = toSlot c p ∧ g.body = toBody c p :=
  ⟨_, _, rfl, rfl, rfl, rfl, rfl, rfl, rfl⟩

/-- A rule that every `up` of the port adds and nothing but its `down` takes away is there while the port is up. -/
theorem pair_rule {c : Cfg} (ok : CfgOk c) {o : Other} (oo : OtherOk c o) {p : Nat} {pc : PortConf}
    (hp : c.ports.get? p = some pc) (hdot : pc.dot1x = true) {f : FlowMod} (hf : .flow f ∈ flowPair c p) (hc : f.cmd = .add)
    (hsp : ∀ e m, e ≠ .down p → Sent c e m → Spares m f.slot f.body) {st0 st : St} {h : List Ev}
    (hr : run c o st0 h = some st) (up : IsUp h p) : st.sw.flows f.slot = some f.body := by
  induction h using List.reverseRecOn generalizing st with
  | nil => exact absurd up (isUp_nil p)
  | append_singleton h e ih =>
    rw [run_snoc] at hr
    obtain ⟨s1, k1, k2⟩ := Option.bind_eq_some_iff.1 hr
    rw [isUp_snoc] at up
    rcases up with rfl | ⟨up, hne⟩
    · simp only [step, hp] at k2
      obtain ⟨ms, e1, e2, e3⟩ := sent_up ok oo hp k2
      rw [e1]
      have hs : ∀ m ∈ ms, Spares m f.slot f.body := fun m hm => hsp (.up p) m (by simp) (e2 m hm)
      exact added (e3 hdot _ hf) hc (fun m hm => (hs m hm).1) (fun m hm => (hs m hm).2.1)
        (fun g hg hc' hs' => (hs _ hg).2.2 g rfl hc' hs') _
    · obtain ⟨ms, e1, e2⟩ := sent_step ok oo k2
      rw [e1]
      exact spares_persist (fun m hm => hsp e m hne (e2 m hm)) (ih k1 up)

/-- Rewriting one header field and sending the packet out. -/
theorem runInst_redirect (sw : Switch) (pkt : Pkt) {f v n : Nat} (h1 : f ≠ fVlanVid) (h2 : f ≠ fVlanPcp) (h3 : fInPort ≠ f)
    (h4 : n ≠ portInPort) (h5 : pkt.hdr fInPort ≠ some n) :
    (runInst sw [.apply [.setField f v, .output n]] pkt).1 = [⟨n, pkt.tags, fun g => if g = f then some v else pkt.hdr g⟩] := by
  have ha : Action.apply (.setField f v) pkt = { pkt with hdr := fun g => if g = f then some v else pkt.hdr g } := by
    simp only [Action.apply]
    rw [if_neg h1, if_neg h2]
  have he : (runInst sw [.apply [.setField f v, .output n]] pkt).1 = emitPort (Action.apply (.setField f v) pkt) n ++ [] := rfl
  rw [he, ha, List.append_nil]
  unfold emitPort
  rw [if_neg h4]
  simp only [if_neg h3]
  rw [if_neg h5]

/-- **C59.** While an 802.1x port is up, an EAPOL packet that enters through it leaves through the authenticator's port and
nowhere else, with the address that stands for the port as destination. -/
theorem eapol_redirected {c : Cfg} (ok : CfgOk c) {o : Other} (oo : OtherOk c o) {st0 st : St} (fresh : Fresh c st0)
    {h : List Ev} (hr : run c o st0 h = some st) {p : Nat} {pc : PortConf} (hp : c.ports.get? p = some pc)
    (hdot : pc.dot1x = true) (hn : NoCatchAll c p pc) (up : IsUp h p) (hnfv : c.nfv ≠ portInPort)
    {pkt : Pkt} (hin : pkt.hdr fInPort = some p) (heap : pkt.hdr fEthType = some ethEapol) (es : List Emit) :
    Proc st.sw c.table.id pkt es ↔
      es = [⟨c.nfv, pkt.tags, fun g => if g = fEthDst then some (c.ident p) else pkt.hdr g⟩] := by
  obtain ⟨f, g, e0, hc, _, hs, hb, _, _⟩ := flowPair_mem c p
  have hrule : st.sw.flows (fromSlot c p) = some (fromBody c p) := by
    rw [← hs, ← hb]
    refine pair_rule ok oo hp hdot (by rw [e0]; simp) hc ?_ hr up
    intro e m he h
    rw [hs, hb]
    exact h.eapol ok hp hdot hn he
  have hhit : hitsAll (fromSlot c p).items pkt = true := by
    simp only [hitsAll, fromSlot, fromItems, List.all_cons, List.all_nil, Bool.and_true, Bool.and_eq_true]
    exact ⟨(hits_exact (by decide) (by decide)).2 hin, (hits_exact (by decide) (by decide)).2 heap⟩
  have hk := inv_run ok oo fresh h hr
  have hkinds : ∀ s b, st.sw.flows s = some b → s.table = c.table.id → hitsAll s.items pkt = true →
      s.priority < overridePriority ∨ s = fromSlot c p := by
    intro s b hs ht hh
    have h0 : 0 < overridePriority := by decide
    have h1 : mabPriority < overridePriority := by decide
    have h2 := prio_lt
    rcases (hk s b hs ht).inPort ok hp hdot pkt hin hh with ⟨_, h, _⟩ | ⟨h, _⟩ | ⟨_, h, _⟩ | ⟨_, a, fs, f, k1, k2, k3, k4, _⟩ |
      ⟨m, filter, ms, f, _, ha, hm, hsl, _, hacl⟩
    · left; rw [h]; exact h0
    · exact .inr h
    · left; rw [h]; exact h1
    · left
      have := (aclFlow_slot (mem_addPortAcl ok.enc (ok.noauthRules a k1) k2 k3) k4).2.2
      omega
    · left
      have := (aclFlow_slot hacl hsl).2.2
      omega
  have hHit : Hit st.sw c.table.id pkt (fromSlot c p) (fromBody c p) := by
    refine ⟨hrule, rfl, hhit, ?_⟩
    intro s b hs ht hh
    rcases hkinds s b hs ht hh with h | h
    · exact Nat.le_of_lt h
    · rw [h]
  have honly : ∀ s b, Hit st.sw c.table.id pkt s b → b = fromBody c p := by
    intro s b hit
    rcases hkinds s b hit.present hit.table hit.hits with h | h
    · have := hit.best _ _ hrule rfl hhit
      have hpr : (fromSlot c p).priority = overridePriority := rfl
      omega
    · have := hit.present
      rw [h, hrule] at this
      injection this with this
      exact this.symm
  have hout : (runInst st.sw (fromBody c p).inst pkt).1 =
      [⟨c.nfv, pkt.tags, fun g => if g = fEthDst then some (c.ident p) else pkt.hdr g⟩] := by
    refine runInst_redirect _ _ (by decide) (by decide) (by decide) hnfv ?_
    rw [hin]
    intro h
    injection h with h
    exact nfv_ne ok hp hdot h.symm
  constructor
  · intro hpr
    cases hpr with
    | miss h => rw [h _ _ hrule rfl] at hhit; cases hhit
    | done hit hg =>
      rw [honly _ _ hit]
      exact hout
    | next hit hg hn =>
      rw [honly _ _ hit] at hg
      cases hg
  · rintro rfl
    rw [← hout]
    exact Proc.done hHit rfl

/-- The answer: what a message may do to the rule for the way back. -/
theorem Sent.answer {c : Cfg} (ok : CfgOk c) {e : Ev} {m : OfMsg} (h : Sent c e m) {p : Nat}
    (inj : ∀ q pq, c.ports.get? q = some pq → pq.dot1x = true → c.ident q = c.ident p → q = p) (hne : e ≠ .down p) :
    Spares m (toSlot c p) (toBody c p) := by
  have hpin : Pins fInPort c.nfv (toSlot c p).items := pins_toItems _ _
  have hq : ∀ q pq, c.ports.get? q = some pq → pq.dot1x = true ∨ pq.outputOnly = false → q ≠ c.nfv := by
    rintro q pq h1 h2 rfl
    obtain ⟨k1, k2⟩ := ok.nfvOnly pq h1
    rw [k1, k2] at h2
    rcases h2 with h2 | h2 <;> cases h2
  cases h with
  | quiet h => exact spares_quiet (h _ rfl)
  | group g h =>
    subst h
    refine ⟨tame_group g _, group_kills (toBody_plain c p), ?_⟩
    intro f hf
    cases hf
  | port q pq h1 h2 h3 h4 => exact spares_port h4 hpin (hq q pq h1 (.inr h3))
  | wipe q pq h1 h2 h3 h4 =>
    subst h4
    exact spares_port (del_portMsg (pins_inPortItem q)).1 hpin (hq q pq h1 (.inr h3))
  | pair q pq h1 h2 h3 =>
    rcases mem_flowPair h3 with ⟨f, rfl, k1, k2, k3⟩ | ⟨f, rfl, k1, k2, k3⟩
    · refine spares_add k1 ?_
      intro he
      exfalso
      rw [k2] at he
      rw [← he] at hpin
      exact hq q pq h1 (.inl h2) (pins_unique (pins_fromItems q) hpin)
    · refine spares_add k1 ?_
      intro he
      rw [k2] at he
      have hid : c.ident q = c.ident p := by
        simp [toSlot, toItems] at he
        exact he
      have := inj q pq h1 h2 hid
      subst this
      exact k3
  | unpair q pq h1 h2 h3 h4 =>
    have hqp : q ≠ p := by
      rintro rfl
      exact hne h3
    simp only [delFlowPair, List.mem_cons, List.not_mem_nil, or_false] at h4
    rcases h4 with rfl | rfl
    · apply spares_loose
      refine not_covers (field := fEthSrc) (v := c.ident q) (w := c.ident p) (by simp [toItems]) ?_ ?_
      · intro i hi hf
        simp only [toSlot, toItems, List.mem_cons, List.not_mem_nil, or_false] at hi
        rcases hi with rfl | rfl | rfl
        · simp [fInPort, fEthSrc] at hf
        · rfl
        · simp [fEthType, fEthSrc] at hf
      · intro he
        exact hqp (inj q pq h1 h2 he)
    · exact spares_port (del_portMsg (pins_fromItems _)).1 hpin (hq q pq h1 (.inl h2))
  | mab q pq h1 h2 h3 =>
    obtain ⟨f, k1, k2, k3, _⟩ := mem_mabFlow (c := c) (q := q)
    rw [h3, k1]
    refine spares_add k2 ?_
    intro he
    exfalso
    rw [k3] at he
    rw [← he] at hpin
    exact hq q pq h1 (.inl h2) (pins_unique (pins_mabItems q) hpin)
  | unmab q pq h1 h2 h3 h4 =>
    subst h4
    exact spares_port (del_portMsg (pins_mabItems _)).1 hpin (hq q pq h1 (.inl h2))
  | noauth q pq h1 h2 h3 f h4 h5 =>
    subst h4
    exact spares_aclFlow h5 rfl
  | unnoauth q pq h1 h2 h3 a fs f h4 h5 h6 h7 h8 => exact spares_port h8.1 hpin (hq q pq h1 (.inl h2))
  | auth q pq h1 h2 mac v filter ms h3 h4 h5 =>
    obtain ⟨f, rfl, k2⟩ := mem_addAuth ok h4 h5
    exact spares_aclFlow k2 rfl
  | unauth q pq h1 h2 mac ms h3 h4 h5 =>
    have := (mem_delAuth ok h4 h5).1.1
    rw [ok.number q pq h1] at this
    exact spares_port this hpin (hq q pq h1 (.inl h2))

/-- **C59.** While an 802.1x port is up, the authenticator's answers, sent from the address that stands for the port, leave
through that port and nowhere else. -/
theorem eapol_answered {c : Cfg} (ok : CfgOk c) {o : Other} (oo : OtherOk c o) {st0 st : St} (fresh : Fresh c st0)
    {h : List Ev} (hr : run c o st0 h = some st) {p : Nat} {pc : PortConf} (hp : c.ports.get? p = some pc)
    (hdot : pc.dot1x = true) (inj : ∀ q pq, c.ports.get? q = some pq → pq.dot1x = true → c.ident q = c.ident p → q = p)
    (up : IsUp h p) (hres : p ≠ portInPort) {pkt : Pkt} (hin : pkt.hdr fInPort = some c.nfv)
    (hsrc : pkt.hdr fEthSrc = some (c.ident p)) (heap : pkt.hdr fEthType = some ethEapol) (es : List Emit) :
    Proc st.sw c.table.id pkt es ↔
      es = [⟨p, pkt.tags, fun g => if g = fEthSrc then some eapolDst else pkt.hdr g⟩] := by
  obtain ⟨g, f, e0, _, hc, _, _, hs, hb⟩ := flowPair_mem c p
  have hrule : st.sw.flows (toSlot c p) = some (toBody c p) := by
    rw [← hs, ← hb]
    refine pair_rule ok oo hp hdot (by rw [e0]; simp) hc ?_ hr up
    intro e m he h
    rw [hs, hb]
    exact h.answer ok inj he
  have hhit : hitsAll (toSlot c p).items pkt = true := by
    simp only [hitsAll, toSlot, toItems, List.all_cons, List.all_nil, Bool.and_true, Bool.and_eq_true]
    exact ⟨(hits_exact (by decide) (by decide)).2 hin, (hits_exact (by decide) (by decide)).2 hsrc,
      (hits_exact (by decide) (by decide)).2 heap⟩
  have hk := inv_run ok oo fresh h hr
  have hkinds : ∀ s b, st.sw.flows s = some b → s.table = c.table.id → hitsAll s.items pkt = true →
      s.priority < overridePriority ∨ s = toSlot c p := by
    intro s b hs ht hh
    have h0 : 0 < overridePriority := by decide
    have h1 : mabPriority < overridePriority := by decide
    have h2 := prio_lt
    have hq : ∀ q pq, c.ports.get? q = some pq → pq.dot1x = true ∨ pq.outputOnly = false → Pins fInPort q s.items → False := by
      intro q pq e1 e2 e3
      have := pins_hit e3 (by decide) (by decide) hh
      rw [hin] at this
      injection this with this
      subst this
      obtain ⟨k1, k2⟩ := ok.nfvOnly pq e1
      rw [k1, k2] at e2
      rcases e2 with e2 | e2 <;> cases e2
    cases hk s b hs ht with
    | base k1 k2 k3 => left; rw [k2]; exact h0
    | port q pq k1 k2 k3 k4 => exact (hq q pq k1 (.inr k3) k4).elim
    | pair q pq k1 k2 f k3 k4 k5 =>
      rcases mem_flowPair k3 with ⟨g, hg, _, l1, l2⟩ | ⟨g, hg, _, l1, l2⟩
      · injection hg with hg
        subst hg
        rw [k4] at l1
        exact (hq q pq k1 (.inl k2) (by rw [l1]; exact pins_fromItems q)).elim
      · injection hg with hg
        subst hg
        rw [k4] at l1
        right
        rw [l1] at hh
        simp only [hitsAll, toItems, List.all_cons, List.all_nil, Bool.and_true, Bool.and_eq_true] at hh
        have := (hits_exact (by decide) (by decide)).1 hh.2.1
        rw [hsrc] at this
        injection this with this
        rw [l1, ← this]
        rfl
    | mab q pq k1 k2 k3 f k4 k5 k6 =>
      obtain ⟨g, hg, _, l1, _⟩ := mem_mabFlow (c := c) (q := q)
      rw [hg] at k4
      injection k4 with k4
      subst k4
      rw [k5] at l1
      exact (hq q pq k1 (.inl k2) (by rw [l1]; exact pins_mabItems q)).elim
    | noauth q pq k1 k2 k3 a fs f k4 k5 k6 k7 k8 =>
      left
      have := (aclFlow_slot (mem_addPortAcl ok.enc (ok.noauthRules a k4) k5 k6) k7).2.2
      omega
    | auth q pq k1 k2 m k3 filter ms f k4 k5 k6 k7 =>
      left
      obtain ⟨g, hg, hacl⟩ := mem_addAuth ok k4 k5
      injection hg with hg
      subst hg
      have := (aclFlow_slot hacl k6).2.2
      omega
  have hHit : Hit st.sw c.table.id pkt (toSlot c p) (toBody c p) := by
    refine ⟨hrule, rfl, hhit, ?_⟩
    intro s b hs ht hh
    rcases hkinds s b hs ht hh with h | h
    · exact Nat.le_of_lt h
    · rw [h]
  have honly : ∀ s b, Hit st.sw c.table.id pkt s b → b = toBody c p := by
    intro s b hit
    rcases hkinds s b hit.present hit.table hit.hits with h | h
    · have := hit.best _ _ hrule rfl hhit
      have hpr : (toSlot c p).priority = overridePriority := rfl
      omega
    · have := hit.present
      rw [h, hrule] at this
      injection this with this
      exact this.symm
  have hout : (runInst st.sw (toBody c p).inst pkt).1 =
      [⟨p, pkt.tags, fun g => if g = fEthSrc then some eapolDst else pkt.hdr g⟩] := by
    refine runInst_redirect _ _ (by decide) (by decide) (by decide) hres ?_
    rw [hin]
    intro h
    injection h with h
    exact nfv_ne ok hp hdot h
  constructor
  · intro hpr
    cases hpr with
    | miss h => rw [h _ _ hrule rfl] at hhit; cases hhit
    | done hit hg =>
      rw [honly _ _ hit]
      exact hout
    | next hit hg hn =>
      rw [honly _ _ hit] at hg
      cases hg
  · rintro rfl
    rw [← hout]
    exact Proc.done hHit rfl

/-! ## Dynamic VLANs -/

/-- What the history says the dynamic VLAN of a port is: that of the last login that named a known VLAN, unless a logoff, a
failure, or the port going down came after it. -/
def vlanOf (c : Cfg) (lacp : Bool) (p : Nat) : List Ev → Option Nat
  | [] => none
  | .login q _ (some v) _ :: older =>
    if q = p then (match c.vlanNamed v with | some n => some n | none => vlanOf c lacp p older) else vlanOf c lacp p older
  | .logoff q _ :: older => if q = p then none else vlanOf c lacp p older
  | .fail q _ :: older => if q = p then none else vlanOf c lacp p older
  | .down q :: older => if q = p ∧ lacp = false then none else vlanOf c lacp p older
  | _ :: older => vlanOf c lacp p older

/-- **C60.** As long as the configuration is not read again, the dynamic VLAN of an 802.1x port is given by the history of
logins (newest first), whoever logged in. -/
theorem dynamic_vlan {c : Cfg} (ok : CfgOk c) {o : Other} {st0 st : St} {h : List Ev}
    (hr : run c o st0 h = some st) {p : Nat} {pc : PortConf} (hp : c.ports.get? p = some pc) (hdot : pc.dot1x = true)
    (h0 : st0.dyn p = none) (hnr : .reload ∉ h) :
    st.dyn p = vlanOf c pc.lacp p h.reverse := by
  induction h using List.reverseRecOn generalizing st with
  | nil =>
    simp only [run, List.foldlM_nil] at hr
    injection hr with hr
    subst hr
    exact h0
  | append_singleton h e ih =>
    rw [run_snoc] at hr
    obtain ⟨s1, k1, k2⟩ := Option.bind_eq_some_iff.1 hr
    have hi := ih k1 (fun hx => hnr (List.mem_append_left _ hx))
    rw [List.reverse_append, List.reverse_singleton, List.singleton_append]
    have hlog : ∀ n mac, (dot1xPort c n).bind (fun p => logoff c o s1 p mac) = some st →
        st.dyn p = if n = p then none else s1.dyn p := by
      intro n mac hs
      obtain ⟨p', hp', hs⟩ := Option.bind_eq_some_iff.1 hs
      obtain ⟨g1, g2⟩ := dot1xPort_get hp'
      have hnum := ok.number n p' g1
      unfold logoff at hs
      obtain ⟨ms, _, rfl⟩ := Option.map_eq_some_iff.1 hs
      simp only [St.setDyn, hnum]
      by_cases hq : n = p
      · subst hq; simp
      · rw [if_neg hq, if_neg (fun h => hq h.symm)]
        rfl
    cases e with
    | up n =>
      have hd : st.dyn p = s1.dyn p := by
        simp only [step] at k2
        cases hn : c.ports.get? n with
        | none =>
          rw [hn] at k2
          injection k2 with k2
          rw [k2]
        | some pn =>
          rw [hn] at k2
          unfold portUp at k2
          obtain ⟨a, _, k2⟩ := Option.bind_eq_some_iff.1 k2
          obtain ⟨d, _, rfl⟩ := Option.map_eq_some_iff.1 k2
          rfl
      rw [hd, hi]
      rfl
    | down n =>
      simp only [step] at k2
      simp only [vlanOf]
      cases hn : c.ports.get? n with
      | none =>
        rw [hn] at k2
        injection k2 with k2
        subst k2
        have hne : ¬ (n = p ∧ pc.lacp = false) := by
          rintro ⟨rfl, _⟩
          rw [hp] at hn
          cases hn
        rw [if_neg hne]
        exact hi
      | some pn =>
        rw [hn] at k2
        have hnum := ok.number n pn hn
        unfold portDown at k2
        dsimp only at k2
        by_cases hl : pn.lacp = true
        · rw [if_pos hl] at k2
          injection k2 with k2
          subst k2
          have hne : ¬ (n = p ∧ pc.lacp = false) := by
            rintro ⟨rfl, h⟩
            rw [hp] at hn
            injection hn with hn
            subst hn
            rw [hl] at h
            cases h
          rw [if_neg hne]
          exact hi
        · rw [if_neg hl] at k2
          obtain ⟨d, _, k2⟩ := Option.map_eq_some_iff.1 k2
          by_cases hq : n = p
          · subst hq
            rw [hp] at hn
            injection hn with hn
            subst hn
            rw [if_pos hdot] at k2
            subst k2
            rw [if_pos ⟨rfl, by simpa using hl⟩]
            simp [St.setDyn, hnum]
          · rw [if_neg (fun h => hq h.1)]
            rw [← hi, ← k2]
            split
            · simp only [St.setDyn, hnum]
              rw [if_neg (fun h => hq h.symm)]
              rfl
            · rfl
    | login n mac v filter =>
      simp only [step] at k2
      obtain ⟨p', hp', hs⟩ := Option.bind_eq_some_iff.1 k2
      obtain ⟨g1, g2⟩ := dot1xPort_get hp'
      have hnum := ok.number n p' g1
      unfold login at hs
      obtain ⟨ms, _, hs⟩ := Option.map_eq_some_iff.1 hs
      cases v with
      | none =>
        simp only [newVlan, Option.bind_none] at hs
        subst hs
        exact hi
      | some v =>
        simp only [newVlan, Option.bind_some] at hs
        simp only [vlanOf]
        cases hv : c.vlanNamed v with
        | none =>
          rw [hv] at hs
          subst hs
          simp only [ite_self]
          exact hi
        | some w =>
          rw [hv] at hs
          subst hs
          simp only [St.setDyn, hnum]
          by_cases hq : n = p
          · subst hq; simp
          · rw [if_neg hq, if_neg (fun h => hq h.symm)]
            exact hi
    | logoff n mac =>
      rw [hlog n mac k2, hi]
      simp only [vlanOf]
    | fail n mac =>
      rw [hlog n mac k2, hi]
      simp only [vlanOf]
    | reload => exact absurd (List.mem_append_right h (List.mem_singleton.2 rfl)) hnr

theorem run_append (c : Cfg) (o : Other) (st : St) (h g : List Ev) :
    run c o st (h ++ g) = (run c o st h).bind (fun s => run c o s g) := by
  unfold run
  rw [List.foldlM_append]
  rfl

/-- **C60.** Reading the configuration again makes FAUCET forget the dynamic VLANs: what it takes to be the VLAN of the port
is given by the history since. -/
theorem dynamic_vlan_since_reload {c : Cfg} (ok : CfgOk c) {o : Other} {st0 st : St} {old new : List Ev}
    (hr : run c o st0 (old ++ .reload :: new) = some st) {p : Nat} {pc : PortConf} (hp : c.ports.get? p = some pc)
    (hdot : pc.dot1x = true) (hnr : .reload ∉ new) : st.dyn p = vlanOf c pc.lacp p new.reverse := by
  rw [run_append] at hr
  obtain ⟨s1, _, h2⟩ := Option.bind_eq_some_iff.1 hr
  have h3 : run c o s1 (.reload :: new) = run c o (reload s1) new := rfl
  rw [h3] at h2
  exact dynamic_vlan ok h2 hp hdot rfl hnr

end Faucet.Dot1x
