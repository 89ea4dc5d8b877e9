import Verif.Dot1x.Main

/-! # 802.1x: rules that stay (C47, C59) -/

namespace Faucet.Dot1x
open Faucet.OF Faucet.FlowReorder

/-- What may be sent because of an event. -/
inductive Sent (c : Cfg) (e : Ev) (m : OfMsg) : Prop
  | quiet (h : ∀ s : Slot, s.table = c.table.id → ∀ b, m.onFlow s b = b)
  | group (g : GroupMod) (is : m = .group g)
  | port (q : Nat) (p : PortConf) (get : c.ports.get? q = some p) (not : p.dot1x = false) (op : p.outputOnly = false)
      (is : PortMsg c q m)
  | wipe (q : Nat) (p : PortConf) (get : c.ports.get? q = some p) (ev : e = .down q) (op : p.outputOnly = false)
      (is : m = c.table.flowdel [Acl.inPortItem q] Acl.aclPriority)
  | pair (q : Nat) (p : PortConf) (get : c.ports.get? q = some p) (dot : p.dot1x = true) (is : m ∈ flowPair c q)
  | unpair (q : Nat) (p : PortConf) (get : c.ports.get? q = some p) (dot : p.dot1x = true) (ev : e = .down q)
      (is : m ∈ delFlowPair c q)
  | mab (q : Nat) (p : PortConf) (get : c.ports.get? q = some p) (dot : p.dot1x = true) (is : m = mabFlow c q)
  | unmab (q : Nat) (p : PortConf) (get : c.ports.get? q = some p) (dot : p.dot1x = true) (ev : e = .down q)
      (is : m = delMabFlow c q)
  | noauth (q : Nat) (p : PortConf) (get : c.ports.get? q = some p) (dot : p.dot1x = true) (on : p.dot1xAcl = true)
      (f : FlowMod) (is : m = .flow f) (acl : AclFlow c q none f)
  | unnoauth (q : Nat) (p : PortConf) (get : c.ports.get? q = some p) (dot : p.dot1x = true) (on : p.dot1xAcl = true)
      (a : Acl.Acl) (fs : List FlowMod) (f : FlowMod) (acl : c.noauth = some a) (add : addPortAcl c a q none = some fs)
      (mem : f ∈ fs) (is : m = c.table.flowdel f.mtch.items f.priority) (del : PortDel c q m)
  | auth (q : Nat) (p : PortConf) (get : c.ports.get? q = some p) (dot : p.dot1x = true) (mac : Nat) (v filter : Option Nat)
      (ms : List OfMsg) (ev : e = .login q mac v filter) (add : addAuth c p mac filter = some ms) (mem : m ∈ ms)
  | unauth (q : Nat) (p : PortConf) (get : c.ports.get? q = some p) (dot : p.dot1x = true) (mac : Nat)
      (ms : List OfMsg) (ev : Ends q mac e) (del : delAuth c p mac = some ms) (mem : m ∈ ms)

theorem sent_up {c : Cfg} (ok : CfgOk c) {o : Other} (oo : OtherOk c o) {st st' : St} {n : Nat} {p : PortConf}
    (hp : c.ports.get? n = some p) (hs : portUp c o st p = some st') :
    ∃ ms, st'.sw = st.sw.execAll ms ∧ (∀ m ∈ ms, Sent c (.up n) m) ∧ (p.dot1x = true → ∀ m ∈ flowPair c n, m ∈ ms) := by
  have hnum := ok.number n p hp
  unfold portUp at hs
  obtain ⟨a, ha, hs⟩ := Option.bind_eq_some_iff.1 hs
  obtain ⟨d, hd, rfl⟩ := Option.map_eq_some_iff.1 hs
  refine ⟨_, rfl, ?_, ?_⟩
  · intro m hm
    rcases List.mem_append.1 hm with hm | hm
    · rcases List.mem_append.1 hm with hm | hm
      · exact .quiet (oo.up _ m hm)
      · obtain ⟨h1, h2, ⟨g, rfl⟩ | ⟨f, rfl, hc, h3, h4⟩⟩ := mem_aclAdd ok hp ha hm
        · exact .group g rfl
        · exact .port n p hp h1 h2 ⟨f, rfl, by rw [hc]; decide, h3, h4⟩
    · unfold mgrAdd at hd
      split at hd
      · injection hd with hd
        subst hd
        unfold nfvUpMsgs at hm
        obtain ⟨q, hq, hm⟩ := List.mem_flatMap.1 hm
        obtain ⟨hq1, hq2⟩ := List.mem_filter.1 hq
        unfold pairIfUp at hm
        split at hm
        · exact .pair q.number q (ok.values q hq1) hq2 hm
        · cases hm
      · split at hd
        · rename_i hdot
          unfold portUpMsgs at hd
          obtain ⟨u, hu, rfl⟩ := Option.map_eq_some_iff.1 hd
          rw [hnum] at hm
          rcases List.mem_append.1 hm with hm | hm
          · rcases List.mem_append.1 hm with hm | hm
            · exact .pair n p hp hdot hm
            · obtain ⟨hacl, ac, fs, f, k1, k2, k3, rfl, k4⟩ := mem_addUnauth ok hu hm
              rw [hnum] at k4
              exact .noauth n p hp hdot hacl f rfl k4
          · split at hm
            · simp only [List.mem_singleton] at hm
              exact .mab n p hp hdot hm
            · cases hm
        · injection hd with hd
          subst hd
          cases hm
  · intro hdot m hm
    apply List.mem_append_right
    unfold mgrAdd at hd
    have hne : p.number ≠ c.nfv := by
      intro he
      rw [hnum] at he
      subst he
      rw [(ok.nfvOnly p hp).2] at hdot
      cases hdot
    rw [if_neg hne, if_pos hdot] at hd
    unfold portUpMsgs at hd
    obtain ⟨u, hu, rfl⟩ := Option.map_eq_some_iff.1 hd
    rw [hnum]
    simp [hm]

theorem sent_down {c : Cfg} (ok : CfgOk c) {o : Other} (oo : OtherOk c o) {st st' : St} {n : Nat} {p : PortConf}
    (hp : c.ports.get? n = some p) (hs : portDown c o st p = some st') :
    ∃ ms, st'.sw = st.sw.execAll ms ∧ ∀ m ∈ ms, Sent c (.down n) m := by
  have hnum := ok.number n p hp
  unfold portDown at hs
  dsimp only at hs
  split at hs
  · injection hs with hs
    subst hs
    exact ⟨_, rfl, fun m hm => .quiet (oo.down _ m hm)⟩
  · obtain ⟨d, hd, hs⟩ := Option.map_eq_some_iff.1 hs
    have hsw : st'.sw = st.sw.execAll (o.down p.number ++ Acl.delPort (aclMgr c) (aclPort p) ++ d) := by
      split at hs <;> (subst hs; rfl)
    refine ⟨_, hsw, ?_⟩
    intro m hm
    rcases List.mem_append.1 hm with hm | hm
    · rcases List.mem_append.1 hm with hm | hm
      · exact .quiet (oo.down _ m hm)
      · cases hoo : p.outputOnly with
        | true =>
          unfold Acl.delPort Acl.portAclsAllowed at hm
          simp [aclMgr, aclPort, hoo] at hm
        | false =>
          have h1 := (mem_aclDel hm).2
          rw [hnum] at h1
          exact .wipe n p hp rfl hoo h1
    · unfold mgrDel at hd
      split at hd
      · rename_i hdot
        unfold portDownMsgs at hd
        obtain ⟨x, hx, hd⟩ := Option.bind_eq_some_iff.1 hd
        obtain ⟨y, hy, rfl⟩ := Option.map_eq_some_iff.1 hd
        rcases List.mem_append.1 hm with hm | hm
        · rcases List.mem_append.1 hm with hm | hm
          · rcases List.mem_append.1 hm with hm | hm
            · rcases List.mem_append.1 hm with hm | hm
              · exact .unauth n p hp hdot _ x (.inr (.inr rfl)) hx hm
              · exact .quiet (quiet_unVlan oo _ _ m hm)
            · obtain ⟨h1, h2, a, fs, f, h3, h4, h5, h6⟩ := mem_delUnauth ok hy hm
              rw [hnum] at h4 h1
              exact .unnoauth n p hp hdot h2 a fs f h3 h4 h5 h6 h1
          · simp only [List.mem_singleton] at hm
            rw [hnum] at hm
            exact .unmab n p hp hdot rfl hm
        · rw [hnum] at hm
          exact .unpair n p hp hdot rfl hm
      · injection hd with hd
        subst hd
        cases hm

theorem sent_login {c : Cfg} (ok : CfgOk c) {o : Other} (oo : OtherOk c o) {st st' : St} {n : Nat} {p : PortConf}
    (hp : c.ports.get? n = some p) (hdot : p.dot1x = true) {mac : Nat} {v filter : Option Nat}
    (hs : login c o st p mac v filter = some st') :
    ∃ ms y, st'.sw = st.sw.execAll ms ∧ (∀ m ∈ ms, Sent c (.login n mac v filter) m) ∧
      addAuth c p mac filter = some y ∧ ∀ m ∈ y, m ∈ ms := by
  have hnum := ok.number n p hp
  unfold login at hs
  obtain ⟨ms, hms, hs⟩ := Option.map_eq_some_iff.1 hs
  have hsw : st'.sw = st.sw.execAll ms := by
    split at hs <;> (subst hs; rfl)
  unfold loginMsgs at hms
  obtain ⟨x, hx, hms⟩ := Option.bind_eq_some_iff.1 hms
  obtain ⟨y, hy, rfl⟩ := Option.map_eq_some_iff.1 hms
  refine ⟨_, y, hsw, ?_, hy, by intro m hm; simp [hm]⟩
  intro m hm
  rcases List.mem_append.1 hm with hm | hm
  · rcases List.mem_append.1 hm with hm | hm
    · obtain ⟨h1, h2, a, fs, f, h3, h4, h5, h6⟩ := mem_delUnauth ok hx hm
      rw [hnum] at h4 h1
      exact .unnoauth n p hp hdot h2 a fs f h3 h4 h5 h6 h1
    · exact .auth n p hp hdot mac v filter y rfl hy hm
  · exact .quiet (quiet_vlan oo _ _ _ m hm)

theorem sent_logoff {c : Cfg} (ok : CfgOk c) {o : Other} (oo : OtherOk c o) {st st' : St} {n : Nat} {p : PortConf}
    (hp : c.ports.get? n = some p) (hdot : p.dot1x = true) {mac : Nat} {e : Ev}
    (he : e = .logoff n mac ∨ e = .fail n mac) (hs : logoff c o st p mac = some st') :
    ∃ ms, st'.sw = st.sw.execAll ms ∧ ∀ m ∈ ms, Sent c e m := by
  have hnum := ok.number n p hp
  unfold logoff at hs
  obtain ⟨ms, hms, hs⟩ := Option.map_eq_some_iff.1 hs
  have hsw : st'.sw = st.sw.execAll ms := by subst hs; rfl
  unfold logoffMsgs at hms
  obtain ⟨x, hx, hms⟩ := Option.bind_eq_some_iff.1 hms
  obtain ⟨y, hy, rfl⟩ := Option.map_eq_some_iff.1 hms
  refine ⟨_, hsw, ?_⟩
  intro m hm
  rcases List.mem_append.1 hm with hm | hm
  · rcases List.mem_append.1 hm with hm | hm
    · exact .unauth n p hp hdot mac x (by rcases he with h | h <;> simp [Ends, h]) hx hm
    · exact .quiet (quiet_unVlan oo _ _ m hm)
  · obtain ⟨h1, a, fs, f, _, _, _, rfl, hf⟩ := mem_addUnauth ok hy hm
    rw [hnum] at hf
    exact .noauth n p hp hdot h1 f rfl hf

theorem sent_step {c : Cfg} (ok : CfgOk c) {o : Other} (oo : OtherOk c o) {st st' : St} {e : Ev}
    (hs : step c o st e = some st') : ∃ ms, st'.sw = st.sw.execAll ms ∧ ∀ m ∈ ms, Sent c e m := by
  cases e with
  | up n =>
    simp only [step] at hs
    cases hp : c.ports.get? n with
    | none =>
      rw [hp] at hs
      injection hs with hs
      subst hs
      exact ⟨[], rfl, by simp⟩
    | some p =>
      rw [hp] at hs
      obtain ⟨ms, h1, h2, _⟩ := sent_up ok oo hp hs
      exact ⟨ms, h1, h2⟩
  | down n =>
    simp only [step] at hs
    cases hp : c.ports.get? n with
    | none =>
      rw [hp] at hs
      injection hs with hs
      subst hs
      exact ⟨[], rfl, by simp⟩
    | some p =>
      rw [hp] at hs
      exact sent_down ok oo hp hs
  | login n mac v f =>
    simp only [step] at hs
    obtain ⟨p, hp, hs⟩ := Option.bind_eq_some_iff.1 hs
    obtain ⟨h1, h2⟩ := dot1xPort_get hp
    obtain ⟨ms, _, k1, k2, _⟩ := sent_login ok oo h1 h2 hs
    exact ⟨ms, k1, k2⟩
  | logoff n mac =>
    simp only [step] at hs
    obtain ⟨p, hp, hs⟩ := Option.bind_eq_some_iff.1 hs
    obtain ⟨h1, h2⟩ := dot1xPort_get hp
    exact sent_logoff ok oo h1 h2 (.inl rfl) hs
  | fail n mac =>
    simp only [step] at hs
    obtain ⟨p, hp, hs⟩ := Option.bind_eq_some_iff.1 hs
    obtain ⟨h1, h2⟩ := dot1xPort_get hp
    exact sent_logoff ok oo h1 h2 (.inr rfl) hs
  | reload =>
    simp only [step] at hs
    injection hs with hs
    subst hs
    exact ⟨[], rfl, by simp⟩

/-- What a message may do to one rule without destroying it. -/
def Spares (m : OfMsg) (s : Slot) (b : Body) : Prop :=
  Tame m s ∧ m.kills s b = false ∧ ∀ f, m = .flow f → f.cmd = .add → f.slot = s → f.body = b

theorem spares_persist {ms : List OfMsg} {s : Slot} {b : Body} (h : ∀ m ∈ ms, Spares m s b) {sw : Switch}
    (hs : sw.flows s = some b) : (sw.execAll ms).flows s = some b :=
  persists (fun m hm => (h m hm).1) (fun m hm => (h m hm).2.1) (fun f hf => (h _ hf).2.2 f rfl) sw hs

theorem spares_quiet {m : OfMsg} {s : Slot} {b : Body} (h : ∀ b, m.onFlow s b = b) : Spares m s b := by
  refine ⟨.inl h, kills_of_quiet h b, ?_⟩
  intro f hf hc hs
  subst hf
  have := h none
  simp [OfMsg.onFlow, hc, hs] at this

theorem spares_port {c : Cfg} {q p : Nat} {m : OfMsg} {s : Slot} {b : Body} (h : PortMsg c q m) (hp : Pins fInPort p s.items)
    (hne : q ≠ p) : Spares m s b := by
  refine ⟨tame_port h s, ?_, ?_⟩
  · obtain ⟨f, rfl, _, _, h⟩ := h
    exact other_port_kills h hp hne b
  · obtain ⟨f, rfl, _, _, h⟩ := h
    intro g hg _ hs
    injection hg with hg
    subst hg
    exact absurd hs (other_port_slot h hp hne)

theorem spares_add {f : FlowMod} {s : Slot} {b : Body} (hc : f.cmd = .add) (h : f.slot = s → f.body = b) :
    Spares (.flow f) s b := by
  refine ⟨tame_add hc s, ?_, ?_⟩
  · simp [OfMsg.kills, FlowMod.kills, hc]
  · intro g hg _ hs
    injection hg with hg
    subst hg
    exact h hs

theorem spares_strict {t : Table} {items : List MatchItem} {prio : Nat} {s : Slot} {b : Body} (h : items ≠ s.items) :
    Spares (t.flowdel items prio none true) s b := by
  refine ⟨.inr ?_, ?_, ?_⟩
  · intro f hf
    simp only [Table.flowdel, OfMsg.flow.injEq] at hf
    subst hf
    simp
  · simp [Table.flowdel, OfMsg.kills, FlowMod.kills, h]
  · intro f hf hc
    simp only [Table.flowdel, OfMsg.flow.injEq] at hf
    subst hf
    simp at hc

theorem spares_loose {t : Table} {items : List MatchItem} {prio : Nat} {s : Slot} {b : Body}
    (h : coversItems items s.items = false) : Spares (t.flowdel items prio) s b := by
  refine ⟨.inr ?_, ?_, ?_⟩
  · intro f hf
    simp only [Table.flowdel, OfMsg.flow.injEq] at hf
    subst hf
    simp
  · simp [Table.flowdel, OfMsg.kills, FlowMod.kills, h]
  · intro f hf hc
    simp only [Table.flowdel, OfMsg.flow.injEq] at hf
    subst hf
    simp at hc

theorem portDel_msg {c : Cfg} {q : Nat} {m : OfMsg} (h : PortDel c q m) : PortMsg c q m := h.1

theorem pins_inPortItem (q : Nat) : Pins fInPort q [Acl.inPortItem q] := by
  constructor
  · simp [Acl.inPortItem]
  · intro i hi _
    simpa [Acl.inPortItem] using hi

theorem nfv_ne {c : Cfg} (ok : CfgOk c) {p : Nat} {pc : PortConf} (hp : c.ports.get? p = some pc) (hdot : pc.dot1x = true) :
    c.nfv ≠ p := by
  intro he
  subst he
  rw [(ok.nfvOnly pc hp).2] at hdot
  cases hdot

/-- What an event of another port does to a rule that names the port. -/
theorem Sent.other {c : Cfg} (ok : CfgOk c) {e : Ev} {m : OfMsg} (h : Sent c e m) {p : Nat} {pc : PortConf}
    (hp : c.ports.get? p = some pc) (hdot : pc.dot1x = true) {s : Slot} {b : Body} (ht : s.table = c.table.id)
    (hpin : Pins fInPort p s.items)
    (hb : ∀ i ∈ b.inst, ∀ as, i = .apply as → ∀ a ∈ as, ∀ n, a ≠ .group n) :
    Spares m s b ∨
    (e = .down p) ∨
    (∃ f, m = .flow f ∧ f.cmd = .add ∧ f.slot = ⟨c.table.id, overridePriority, fromItems p⟩ ∧
      f.body = ⟨[.apply [.setField fEthDst (c.ident p), .output c.nfv]], c.table.cookie, 0, 0⟩) ∨
    (m = mabFlow c p) ∨
    (pc.dot1xAcl = true ∧ ∃ f, m = .flow f ∧ AclFlow c p none f) ∨
    (pc.dot1xAcl = true ∧ ∃ a fs f, c.noauth = some a ∧ addPortAcl c a p none = some fs ∧ f ∈ fs ∧
      m = c.table.flowdel f.mtch.items f.priority) ∨
    (∃ mac v filter ms, e = .login p mac v filter ∧ addAuth c pc mac filter = some ms ∧ m ∈ ms) ∨
    (∃ mac ms, Ends p mac e ∧ delAuth c pc mac = some ms ∧ m ∈ ms) := by
  have hnfv := nfv_ne ok hp hdot
  cases h with
  | quiet h => exact .inl (spares_quiet (h s ht))
  | group g h =>
    subst h
    refine .inl ⟨tame_group g s, group_kills hb, ?_⟩
    intro f hf
    cases hf
  | port q pq h1 h2 h3 h4 =>
    refine .inl (spares_port h4 hpin ?_)
    rintro rfl
    rw [hp] at h1
    injection h1 with h1
    subst h1
    rw [hdot] at h2
    cases h2
  | wipe q pq h1 h2 h3 h4 =>
    by_cases hq : q = p
    · subst hq; exact .inr (.inl h2)
    · subst h4; exact .inl (spares_port (del_portMsg (pins_inPortItem q)).1 hpin hq)
  | pair q pq h1 h2 h3 =>
    rcases mem_flowPair h3 with ⟨f, rfl, k1, k2, k3⟩ | ⟨f, rfl, k1, k2, k3⟩
    · by_cases hq : q = p
      · subst hq
        exact .inr (.inr (.inl ⟨f, rfl, k1, k2, k3⟩))
      · refine .inl (spares_add k1 ?_)
        intro he
        exfalso
        rw [k2] at he
        rw [← he] at hpin
        exact hq (pins_unique (pins_fromItems q) hpin)
    · refine .inl (spares_add k1 ?_)
      intro he
      exfalso
      rw [k2] at he
      rw [← he] at hpin
      exact hnfv (pins_unique (pins_toItems _ _) hpin)
  | unpair q pq h1 h2 h3 h4 =>
    by_cases hq : q = p
    · subst hq; exact .inr (.inl h3)
    · simp only [delFlowPair, List.mem_cons, List.not_mem_nil, or_false] at h4
      rcases h4 with rfl | rfl
      · exact .inl (spares_port (del_portMsg (pins_toItems _ _)).1 hpin hnfv)
      · exact .inl (spares_port (del_portMsg (pins_fromItems _)).1 hpin hq)
  | mab q pq h1 h2 h3 =>
    by_cases hq : q = p
    · subst hq; exact .inr (.inr (.inr (.inl h3)))
    · obtain ⟨f, k1, k2, k3, _⟩ := mem_mabFlow (c := c) (q := q)
      rw [h3, k1]
      refine .inl (spares_add k2 ?_)
      intro he
      exfalso
      rw [k3] at he
      rw [← he] at hpin
      exact hq (pins_unique (pins_mabItems q) hpin)
  | unmab q pq h1 h2 h3 h4 =>
    by_cases hq : q = p
    · subst hq; exact .inr (.inl h3)
    · subst h4; exact .inl (spares_port (del_portMsg (pins_mabItems _)).1 hpin hq)
  | noauth q pq h1 h2 h3 f h4 h5 =>
    by_cases hq : q = p
    · subst hq
      rw [hp] at h1
      injection h1 with h1
      subst h1
      exact .inr (.inr (.inr (.inr (.inl ⟨h3, f, h4, h5⟩))))
    · exact .inl (spares_port ⟨f, h4, by rw [h5.cmd]; decide, h5.table, h5.inPort⟩ hpin hq)
  | unnoauth q pq h1 h2 h3 a fs f h4 h5 h6 h7 h8 =>
    by_cases hq : q = p
    · subst hq
      rw [hp] at h1
      injection h1 with h1
      subst h1
      exact .inr (.inr (.inr (.inr (.inr (.inl ⟨h3, a, fs, f, h4, h5, h6, h7⟩)))))
    · exact .inl (spares_port h8.1 hpin hq)
  | auth q pq h1 h2 mac v filter ms h3 h4 h5 =>
    by_cases hq : q = p
    · subst hq
      rw [hp] at h1
      injection h1 with h1
      subst h1
      exact .inr (.inr (.inr (.inr (.inr (.inr (.inl ⟨mac, v, filter, ms, h3, h4, h5⟩))))))
    · obtain ⟨f, k1, k2⟩ := mem_addAuth ok h4 h5
      rw [ok.number q pq h1] at k2
      exact .inl (spares_port ⟨f, k1, by rw [k2.cmd]; decide, k2.table, k2.inPort⟩ hpin hq)
  | unauth q pq h1 h2 mac ms h3 h4 h5 =>
    by_cases hq : q = p
    · subst hq
      rw [hp] at h1
      injection h1 with h1
      subst h1
      exact .inr (.inr (.inr (.inr (.inr (.inr (.inr ⟨mac, ms, h3, h4, h5⟩))))))
    · have := (mem_delAuth ok h4 h5).1.1
      rw [ok.number q pq h1] at this
      exact .inl (spares_port this hpin hq)

/-! ## A client that is logged in -/

theorem addAuth_plain {c : Cfg} {p : PortConf} (h1 : p.dot1xAcl = false) (h2 : p.dynAcl = false) (mac : Nat)
    (filter : Option Nat) : addAuth c p mac filter = some [addAuthedMac c p.number mac] := by
  unfold addAuth
  simp [h1, h2]

theorem delAuth_plain {c : Cfg} {p : PortConf} (h1 : p.dot1xAcl = false) (h2 : p.dynAcl = false) (mac : Nat) :
    delAuth c p mac = some [delAuthedMac c p.number mac true] := by
  unfold delAuth
  simp [h1, h2]

theorem clientBody_plain (c : Cfg) :
    ∀ i ∈ (clientBody c).inst, ∀ as, i = .apply as → ∀ a ∈ as, ∀ n, a ≠ .group n := by
  intro i hi as h
  simp only [clientBody, List.mem_singleton] at hi
  subst hi
  cases h

theorem Sent.client {c : Cfg} (ok : CfgOk c) {e : Ev} {m : OfMsg} (h : Sent c e m) {p mac : Nat} {pc : PortConf}
    (hp : c.ports.get? p = some pc) (hdot : pc.dot1x = true) (h1 : pc.dot1xAcl = false) (h2 : pc.dynAcl = false)
    (hne : ¬ Ends p mac e) : Spares m (clientSlot c p mac) (clientBody c) := by
  have hnum := ok.number p pc hp
  rcases h.other ok hp hdot (s := clientSlot c p mac) (b := clientBody c) rfl (pins_macItems_port p mac) (clientBody_plain c)
    with h | h | ⟨f, rfl, hc, hs, _⟩ | h | ⟨h, _⟩ | ⟨h, _⟩ | ⟨mac', v, filter, ms, he, ha, hm⟩ | ⟨mac', ms, he, hd, hm⟩
  · exact h
  · exact absurd (.inr (.inr h)) hne
  · refine spares_add hc ?_
    intro he
    rw [hs] at he
    simp [clientSlot, overridePriority, authPriority, Acl.aclPriority, highPriority, macItems, fromItems, fEthType, fEthSrc] at he
  · subst h
    obtain ⟨f, k1, k2, k3, _⟩ := mem_mabFlow (c := c) (q := p)
    rw [k1]
    refine spares_add k2 ?_
    intro he
    rw [k3] at he
    simp [clientSlot, macItems, mabItems] at he
  · rw [h1] at h; cases h
  · rw [h1] at h; cases h
  · rw [addAuth_plain h1 h2] at ha
    injection ha with ha
    subst ha
    simp only [List.mem_singleton] at hm
    obtain ⟨f, k1, k2, k3, k4⟩ := addAuthedMac_eq c pc.number mac'
    rw [hm, k1]
    exact spares_add k2 (fun _ => k4)
  · rw [delAuth_plain h1 h2] at hd
    injection hd with hd
    subst hd
    simp only [List.mem_singleton] at hm
    subst hm
    by_cases hmm : mac' = mac
    · subst hmm; exact absurd he hne
    · apply spares_strict
      simp [clientSlot, macItems, hmm]

/-- The rule that lets a client in is there as long as the client is logged in. -/
theorem client_rule {c : Cfg} (ok : CfgOk c) {o : Other} (oo : OtherOk c o) {st0 st : St} {h : List Ev}
    (hr : run c o st0 h = some st) {p mac : Nat} {pc : PortConf} (hp : c.ports.get? p = some pc) (hdot : pc.dot1x = true)
    (h1 : pc.dot1xAcl = false) (h2 : pc.dynAcl = false) (inn : LoggedIn h p mac) :
    st.sw.flows (clientSlot c p mac) = some (clientBody c) := by
  induction h using List.reverseRecOn generalizing st with
  | nil => exact absurd inn (loggedIn_nil p mac)
  | append_singleton h e ih =>
    rw [run_snoc] at hr
    obtain ⟨s1, k1, k2⟩ := Option.bind_eq_some_iff.1 hr
    rw [loggedIn_snoc] at inn
    rcases inn with ⟨v, f, rfl⟩ | ⟨inn, hne⟩
    · simp only [step] at k2
      obtain ⟨p', hp', hs⟩ := Option.bind_eq_some_iff.1 k2
      obtain ⟨g1, _⟩ := dot1xPort_get hp'
      rw [hp] at g1
      injection g1 with g1
      subst g1
      obtain ⟨ms, y, e1, e2, e3, e4⟩ := sent_login ok oo hp hdot hs
      rw [addAuth_plain h1 h2] at e3
      injection e3 with e3
      subst e3
      have hm := e4 _ (List.mem_singleton.2 rfl)
      obtain ⟨f', a1, a2, a3, a4⟩ := addAuthedMac_eq c pc.number mac
      rw [ok.number p pc hp] at a3
      rw [a1] at hm
      rw [e1, ← a3, ← a4]
      have hsp : ∀ m ∈ ms, Spares m (clientSlot c p mac) (clientBody c) :=
        fun m hm => (e2 m hm).client ok hp hdot h1 h2 (by rintro (h | h | h) <;> cases h)
      exact added hm a2 (fun m hm => a3 ▸ (hsp m hm).1) (fun m hm => a3 ▸ a4 ▸ (hsp m hm).2.1)
        (fun g hg hc hs => a4 ▸ (hsp _ hg).2.2 g rfl hc (hs.trans a3)) _
    · obtain ⟨ms, e1, e2⟩ := sent_step ok oo k2
      rw [e1]
      exact spares_persist (fun m hm => (e2 m hm).client ok hp hdot h1 h2 hne) (ih k1 inn)

/-- **C59.** Whatever a client that is logged in sends (but for EAPOL) is treated as if there were no 802.1x: it goes on,
unchanged, to the VLAN table. -/
theorem logged_in_admitted {c : Cfg} (ok : CfgOk c) {o : Other} (oo : OtherOk c o) {st0 st : St} (fresh : Fresh c st0)
    {h : List Ev} (hr : run c o st0 h = some st) {p mac : Nat} {pc : PortConf} (hp : c.ports.get? p = some pc)
    (hdot : pc.dot1x = true) (h1 : pc.dot1xAcl = false) (h2 : pc.dynAcl = false) (inn : LoggedIn h p mac)
    {pkt : Pkt} (hin : pkt.hdr fInPort = some p) (hsrc : pkt.hdr fEthSrc = some mac)
    (heap : pkt.hdr fEthType ≠ some ethEapol) (es : List Emit) :
    Proc st.sw c.table.id pkt es ↔ Proc st.sw c.vlanTable pkt es := by
  have hrule := client_rule ok oo hr hp hdot h1 h2 inn
  have hhit : hitsAll (clientSlot c p mac).items pkt = true := by
    simp only [hitsAll, clientSlot, macItems, List.all_cons, List.all_nil, Bool.and_true, Bool.and_eq_true]
    exact ⟨(hits_exact (by decide) (by decide)).2 hin, (hits_exact (by decide) (by decide)).2 hsrc⟩
  have hk := inv_run ok oo fresh h hr
  have hmab : mabPriority < authPriority := by decide
  have hpos : 0 < authPriority := by decide
  have hkinds : ∀ s b, st.sw.flows s = some b → s.table = c.table.id → hitsAll s.items pkt = true →
      s.priority < authPriority ∨ s = clientSlot c p mac := by
    intro s b hs ht hh
    rcases (hk s b hs ht).inPort ok hp hdot pkt hin hh with ⟨_, h, _⟩ | ⟨h, _⟩ | ⟨_, h, _⟩ | ⟨h, _⟩ |
      ⟨m, filter, ms, f, _, ha, hm, hsl, _, hacl⟩
    · left; rw [h]; exact hpos
    · exfalso
      rw [h] at hh
      simp only [hitsAll, fromItems, List.all_cons, List.all_nil, Bool.and_true, Bool.and_eq_true] at hh
      exact heap ((hits_exact (by decide) (by decide)).1 hh.2)
    · left; rw [h]; exact hmab
    · rw [h1] at h; cases h
    · right
      have hmm := pins_hit ((aclFlow_slot hacl hsl).2.1 m rfl) (by decide) (by decide) hh
      rw [hsrc] at hmm
      injection hmm with hmm
      subst hmm
      rw [addAuth_plain h1 h2] at ha
      injection ha with ha
      subst ha
      simp only [List.mem_singleton] at hm
      obtain ⟨f', k1, _, k3, _⟩ := addAuthedMac_eq c pc.number mac
      rw [k1] at hm
      injection hm with hm
      subst hm
      rw [← hsl, k3, ok.number p pc hp]
  have hHit : Hit st.sw c.table.id pkt (clientSlot c p mac) (clientBody c) := by
    refine ⟨hrule, rfl, hhit, ?_⟩
    intro s b hs ht hh
    rcases hkinds s b hs ht hh with h | h
    · exact Nat.le_of_lt h
    · rw [h]
  have honly : ∀ s b, Hit st.sw c.table.id pkt s b → b = clientBody c := by
    intro s b hit
    rcases hkinds s b hit.present hit.table hit.hits with h | h
    · have := hit.best _ _ hrule rfl hhit
      have hpr : (clientSlot c p mac).priority = authPriority := rfl
      omega
    · have := hit.present
      rw [h, hrule] at this
      injection this with this
      exact this.symm
  constructor
  · intro hpr
    cases hpr with
    | miss h => rw [h _ _ hrule rfl] at hhit; cases hhit
    | done hit hg =>
      rw [honly _ _ hit] at hg
      cases hg
    | next hit hg hn =>
      have hb := honly _ _ hit
      subst hb
      have : instGoto (clientBody c).inst = some c.vlanTable := rfl
      rw [this] at hg
      injection hg with hg
      subst hg
      exact hn
  · intro hpr
    exact Proc.next (b := clientBody c) (n := c.vlanTable) hHit rfl hpr

end Faucet.Dot1x
