import Verif.Dot1x.Props
import Mathlib.Data.List.Infix

/-! Every flow of the port ACL table has a reason (invariant for C47). -/

namespace Faucet.Dot1x
open Faucet.OF Faucet.FlowReorder

theorem loggedIn_snoc (h : List Ev) (e : Ev) (p m : Nat) :
    LoggedIn (h ++ [e]) p m ↔ (∃ v f, e = .login p m v f) ∨ (LoggedIn h p m ∧ ¬ Ends p m e) := by
  constructor
  · rintro ⟨pre, v, f, post, heq, hpost⟩
    rcases List.eq_nil_or_concat post with rfl | ⟨post', x, rfl⟩
    · left
      have := List.append_inj' heq rfl
      simp only [List.cons.injEq, and_true] at this
      exact ⟨v, f, this.2⟩
    · right
      have heq' : h ++ [e] = (pre ++ .login p m v f :: post') ++ [x] := by simpa using heq
      have := List.append_inj' heq' rfl
      simp only [List.cons.injEq, and_true] at this
      obtain ⟨h1, h2⟩ := this
      subst h2
      refine ⟨⟨pre, v, f, post', h1, fun y hy => hpost y (by simp [hy])⟩, hpost e (by simp)⟩
  · rintro (⟨v, f, rfl⟩ | ⟨⟨pre, v, f, post, rfl, hpost⟩, he⟩)
    · exact ⟨h, v, f, [], rfl, by simp⟩
    · refine ⟨pre, v, f, post ++ [e], by simp, ?_⟩
      intro x hx
      rcases List.mem_append.1 hx with hx | hx
      · exact hpost x hx
      · simp only [List.mem_singleton] at hx
        subst hx
        exact he

theorem loggedIn_nil (p m : Nat) : ¬ LoggedIn [] p m := by
  rintro ⟨pre, v, f, post, h, _⟩
  simp at h

/-- Why a flow is in the port ACL table. -/
inductive Known (c : Cfg) (h : List Ev) (s : Slot) (b : Body) : Prop
  | base (items : s.items = []) (prio : s.priority = 0) (inst : b.inst = [])
  | port (q : Nat) (p : PortConf) (get : c.ports.get? q = some p) (not : p.dot1x = false) (op : p.outputOnly = false)
      (pin : Pins fInPort q s.items)
  | pair (q : Nat) (p : PortConf) (get : c.ports.get? q = some p) (is : p.dot1x = true) (f : FlowMod)
      (mem : .flow f ∈ flowPair c q) (slot : f.slot = s) (body : f.body = b)
  | mab (q : Nat) (p : PortConf) (get : c.ports.get? q = some p) (is : p.dot1x = true) (on : p.mab = true) (f : FlowMod)
      (mem : .flow f = mabFlow c q) (slot : f.slot = s) (body : f.body = b)
  | noauth (q : Nat) (p : PortConf) (get : c.ports.get? q = some p) (is : p.dot1x = true) (on : p.dot1xAcl = true)
      (a : Acl.Acl) (fs : List FlowMod) (f : FlowMod) (acl : c.noauth = some a) (add : addPortAcl c a q none = some fs)
      (mem : f ∈ fs) (slot : f.slot = s) (body : f.body = b)
  | auth (q : Nat) (p : PortConf) (get : c.ports.get? q = some p) (is : p.dot1x = true) (m : Nat)
      (inn : LoggedIn h q m ∨ p.lacp = true ∨ p.outputOnly = true) (filter : Option Nat) (ms : List OfMsg) (f : FlowMod)
      (add : addAuth c p m filter = some ms) (mem : .flow f ∈ ms) (slot : f.slot = s) (body : f.body = b)

/-- A flow that was there and is not the client's whose session ends stays known. -/
theorem Known.mono {c : Cfg} {h h' : List Ev} {s : Slot} {b : Body} (k : Known c h s b)
    (hl : ∀ q p m filter ms f, c.ports.get? q = some p → p.dot1x = true → addAuth c p m filter = some ms → .flow f ∈ ms →
      f.slot = s → LoggedIn h q m → LoggedIn h' q m ∨ p.lacp = true ∨ p.outputOnly = true) : Known c h' s b := by
  cases k with
  | base h1 h2 h3 => exact .base h1 h2 h3
  | port q p h1 h2 h3 h4 => exact .port q p h1 h2 h3 h4
  | pair q p h1 h2 f h3 h4 h5 => exact .pair q p h1 h2 f h3 h4 h5
  | mab q p h1 h2 h3 f h4 h5 h6 => exact .mab q p h1 h2 h3 f h4 h5 h6
  | noauth q p h1 h2 h3 a fs f h4 h5 h6 h7 h8 => exact .noauth q p h1 h2 h3 a fs f h4 h5 h6 h7 h8
  | auth q p h1 h2 m h3 filter ms f h4 h5 h6 h7 =>
    refine .auth q p h1 h2 m ?_ filter ms f h4 h5 h6 h7
    rcases h3 with h3 | h3
    · exact hl q p m filter ms f h1 h2 h4 h5 h6 h3
    · exact .inr h3

/-- Every flow of the port ACL table is known. -/
def Inv (c : Cfg) (h : List Ev) (st : St) : Prop :=
  ∀ s b, st.sw.flows s = some b → s.table = c.table.id → Known c h s b

theorem inv_up {c : Cfg} (ok : CfgOk c) {o : Other} (oo : OtherOk c o) {h : List Ev} {st st' : St} (hi : Inv c h st)
    {n : Nat} {p : PortConf} (hp : c.ports.get? n = some p) (hs : portUp c o st p = some st') :
    Inv c (h ++ [.up n]) st' := by
  have hnum := ok.number n p hp
  unfold portUp at hs
  obtain ⟨a, ha, hs⟩ := Option.bind_eq_some_iff.1 hs
  obtain ⟨d, hd, rfl⟩ := Option.map_eq_some_iff.1 hs
  -- the messages of the 802.1x manager
  have hmgr : ∀ m ∈ d, (∃ f, m = .flow f ∧ f.cmd = .add ∧ ∀ s b, f.slot = s → f.body = b → Known c (h ++ [.up n]) s b) := by
    intro m hm
    unfold mgrAdd at hd
    split at hd
    · injection hd with hd
      subst hd
      unfold nfvUpMsgs at hm
      obtain ⟨q, hq, hm⟩ := List.mem_flatMap.1 hm
      obtain ⟨hq1, hq2⟩ := List.mem_filter.1 hq
      unfold pairIfUp at hm
      split at hm
      · rcases mem_flowPair hm with ⟨f, rfl, hc, hsl, hb⟩ | ⟨f, rfl, hc, hsl, hb⟩
        · refine ⟨f, rfl, hc, ?_⟩
          intro s b h1 h2
          exact .pair q.number q (ok.values q hq1) hq2 f hm h1 h2
        · refine ⟨f, rfl, hc, ?_⟩
          intro s b h1 h2
          exact .pair q.number q (ok.values q hq1) hq2 f hm h1 h2
      · cases hm
    · split at hd
      · rename_i hdot
        unfold portUpMsgs at hd
        obtain ⟨u, hu, rfl⟩ := Option.map_eq_some_iff.1 hd
        rw [hnum] at hm
        rcases List.mem_append.1 hm with hm | hm
        · rcases List.mem_append.1 hm with hm | hm
          · rcases mem_flowPair hm with ⟨f, rfl, hc, hsl, hb⟩ | ⟨f, rfl, hc, hsl, hb⟩
            · exact ⟨f, rfl, hc, fun s b h1 h2 => .pair n p hp hdot f hm h1 h2⟩
            · exact ⟨f, rfl, hc, fun s b h1 h2 => .pair n p hp hdot f hm h1 h2⟩
          · obtain ⟨hacl, ac, fs, f, k1, k2, k3, rfl, k4⟩ := mem_addUnauth ok hu hm
            rw [hnum] at k2
            exact ⟨f, rfl, k4.cmd, fun s b h1 h2 => .noauth n p hp hdot hacl ac fs f k1 k2 k3 h1 h2⟩
        · split at hm
          · rename_i hmab
            simp only [List.mem_singleton] at hm
            obtain ⟨f, k1, k2, _⟩ := mem_mabFlow (c := c) (q := n)
            refine ⟨f, hm.trans k1, k2, fun s b h1 h2 => .mab n p hp hdot hmab f k1.symm h1 h2⟩
          · cases hm
      · injection hd with hd
        subst hd
        cases hm
  intro s b hb ht
  have htame : ∀ m ∈ o.up p.number ++ a ++ d, Tame m s := by
    intro m hm
    rcases List.mem_append.1 hm with hm | hm
    · rcases List.mem_append.1 hm with hm | hm
      · exact tame_quiet (oo.up _) hm ht
      · obtain ⟨_, _, ⟨g, rfl⟩ | ⟨f, rfl, hc, _⟩⟩ := mem_aclAdd ok hp ha hm
        · exact tame_group g s
        · exact tame_add hc s
    · obtain ⟨f, rfl, hc, _⟩ := hmgr m hm
      exact tame_add hc s
  rcases origin htame _ b hb with ⟨f, hf, hc, hsl, hbd⟩ | ⟨h1, _⟩
  · rcases List.mem_append.1 hf with hf | hf
    · rcases List.mem_append.1 hf with hf | hf
      · exact (quiet_not_added (oo.up _) hf hc (by rw [hsl]; exact ht)).elim
      · obtain ⟨k1, k2, ⟨g, hg⟩ | ⟨g, hg, _, k3, k4⟩⟩ := mem_aclAdd ok hp ha hf
        · cases hg
        · injection hg with hg
          subst hg
          subst hsl
          exact .port n p hp k1 k2 k4
    · obtain ⟨g, hg, _, hk⟩ := hmgr _ hf
      injection hg with hg
      subst hg
      exact hk s b hsl hbd
  · refine (hi s b h1 ht).mono ?_
    intro q pq m filter ms f _ _ _ _ _ hl
    left
    rw [loggedIn_snoc]
    exact .inr ⟨hl, by rintro (h | h | h) <;> cases h⟩

/-- `unVlanMsgs` leaves the port ACL table alone. -/
theorem quiet_unVlan {c : Cfg} {o : Other} (oo : OtherOk c o) (st : St) (n : Nat) : Quiet c (unVlanMsgs o st n) := by
  unfold unVlanMsgs
  split
  · exact oo.warm _ _ _
  · intro m hm
    cases hm

theorem quiet_vlan {c : Cfg} {o : Other} (oo : OtherOk c o) (st : St) (n : Nat) (v : Option Nat) :
    Quiet c (vlanMsgs o st n v) := by
  unfold vlanMsgs
  split
  · exact oo.warm _ _ _
  · intro m hm
    cases hm

/-- What the messages sent when a port goes down are. -/
theorem mem_mgrDel {c : Cfg} (ok : CfgOk c) {o : Other} {st : St} {p : PortConf} {d : List OfMsg}
    (hd : mgrDel c o st p = some d) {m : OfMsg} (hm : m ∈ d) :
    m ∈ unVlanMsgs o st p.number ∨ PortDel c p.number m ∨
      (p.dot1x = true ∧ m = c.table.flowdel (toItems c.nfv (c.ident p.number)) overridePriority) := by
  unfold mgrDel at hd
  split at hd
  · rename_i hdot
    unfold portDownMsgs at hd
    obtain ⟨x, hx, hd⟩ := Option.bind_eq_some_iff.1 hd
    obtain ⟨y, hy, rfl⟩ := Option.map_eq_some_iff.1 hd
    rcases List.mem_append.1 hm with hm | hm
    · rcases List.mem_append.1 hm with hm | hm
      · rcases List.mem_append.1 hm with hm | hm
        · rcases List.mem_append.1 hm with hm | hm
          · exact .inr (.inl (mem_delAuth ok hx hm).1)
          · exact .inl hm
        · exact .inr (.inl (mem_delUnauth ok hy hm).1)
      · simp only [List.mem_singleton] at hm
        subst hm
        exact .inr (.inl (del_portMsg (pins_mabItems _)))
    · simp only [delFlowPair, List.mem_cons, List.not_mem_nil, or_false] at hm
      rcases hm with rfl | rfl
      · exact .inr (.inr ⟨hdot, rfl⟩)
      · exact .inr (.inl (del_portMsg (pins_fromItems _)))
  · injection hd with hd
    subst hd
    cases hm

theorem quiet_of_not {c : Cfg} {h : List Ev} {st : St} (hi : Inv c h st) {ms : List OfMsg} (hq : Quiet c ms) :
    Inv c h (st.exec ms) := by
  intro s b hb ht
  rcases origin (fun m hm => tame_quiet hq hm ht) _ b hb with ⟨f, hf, hc, hsl, _⟩ | ⟨h1, _⟩
  · exact (quiet_not_added hq hf hc (by rw [hsl]; exact ht)).elim
  · exact hi s b h1 ht

theorem inv_down {c : Cfg} (ok : CfgOk c) {o : Other} (oo : OtherOk c o) {h : List Ev} {st st' : St} (hi : Inv c h st)
    {n : Nat} {p : PortConf} (hp : c.ports.get? n = some p) (hs : portDown c o st p = some st') :
    Inv c (h ++ [.down n]) st' := by
  have hnum := ok.number n p hp
  unfold portDown at hs
  dsimp only at hs
  split at hs
  · rename_i hlacp
    injection hs with hs
    subst hs
    have h1 : Inv c h ((st.setRunning p.number false).exec (o.down p.number)) :=
      quiet_of_not (st := st.setRunning p.number false) hi (oo.down _)
    intro s b hb ht
    refine (h1 s b hb ht).mono ?_
    intro q pq m filter ms f hq _ _ _ _ hl
    by_cases hqn : q = n
    · subst hqn
      rw [hp] at hq
      injection hq with hq
      subst hq
      exact .inr (.inl hlacp)
    · left
      rw [loggedIn_snoc]
      refine .inr ⟨hl, ?_⟩
      rintro (h | h | h)
      · cases h
      · cases h
      · injection h with h
        exact hqn h.symm
  · obtain ⟨d, hd, hs⟩ := Option.map_eq_some_iff.1 hs
    have hsw : st'.sw = st.sw.execAll (o.down p.number ++ Acl.delPort (aclMgr c) (aclPort p) ++ d) := by
      split at hs <;> (subst hs; rfl)
    intro s b hb ht
    rw [hsw] at hb
    have hkind : ∀ m ∈ o.down p.number ++ Acl.delPort (aclMgr c) (aclPort p) ++ d,
        (∀ b, m.onFlow s b = b) ∨ (∃ f, m = .flow f ∧ f.cmd ≠ .add ∧ f.cmd ≠ .modifyStrict) := by
      intro m hm
      have hpd : ∀ q, PortDel c q m → ∃ f, m = .flow f ∧ f.cmd ≠ .add ∧ f.cmd ≠ .modifyStrict := by
        rintro q ⟨⟨f, rfl, k1, _⟩, k2⟩
        exact ⟨f, rfl, k2 f rfl, k1⟩
      rcases List.mem_append.1 hm with hm | hm
      · rcases List.mem_append.1 hm with hm | hm
        · exact .inl (oo.down _ m hm s ht)
        · exact .inr (hpd _ (mem_aclDel hm).1)
      · rcases mem_mgrDel ok hd hm with hm | hm | ⟨_, hm⟩
        · exact .inl (quiet_unVlan oo _ _ m hm s ht)
        · exact .inr (hpd _ hm)
        · exact .inr (hpd _ (hm ▸ del_portMsg (pins_toItems _ _)))
    have htame : ∀ m ∈ o.down p.number ++ Acl.delPort (aclMgr c) (aclPort p) ++ d, Tame m s := by
      intro m hm
      rcases hkind m hm with h | ⟨f, rfl, _, h2⟩
      · exact .inl h
      · refine .inr (fun g hg => ?_)
        injection hg with hg
        subst hg
        exact h2
    rcases origin htame _ b hb with ⟨f, hf, hc, hsl, hbd⟩ | ⟨h1, h2⟩
    · rcases hkind _ hf with h | ⟨g, hg, h, _⟩
      · have := h none
        simp [OfMsg.onFlow, hc, hsl] at this
      · injection hg with hg
        subst hg
        exact absurd hc h
    · refine (hi s b h1 ht).mono ?_
      intro q pq m filter ms f hq hdot hadd hmem hslot hl
      by_cases hqn : q = n
      · subst hqn
        rw [hp] at hq
        injection hq with hq
        subst hq
        cases hoo : p.outputOnly with
        | true => exact .inr (.inr rfl)
        | false =>
          exfalso
          have hk := h2 _ (List.mem_append_left _ (List.mem_append_right _ (aclDel_mem (c := c) hoo)))
          obtain ⟨g, hg, hacl⟩ := mem_addAuth ok hadd hmem
          injection hg with hg
          subst hg
          have hcov : coversItems [Acl.inPortItem p.number] s.items = true := by
            apply coversItems_of_subset
            intro i hi
            simp only [List.mem_singleton] at hi
            subst hi
            rw [← hslot]
            exact hacl.inPort.1
          simp [Table.flowdel, OfMsg.kills, FlowMod.kills, FlowMod.tableOk, FlowMod.outPortOk, ht, hcov] at hk
      · left
        rw [loggedIn_snoc]
        refine .inr ⟨hl, ?_⟩
        rintro (h | h | h)
        · cases h
        · cases h
        · injection h with h
          exact hqn h.symm

theorem inv_login {c : Cfg} (ok : CfgOk c) {o : Other} (oo : OtherOk c o) {h : List Ev} {st st' : St} (hi : Inv c h st)
    {n : Nat} {p : PortConf} (hp : c.ports.get? n = some p) (hdot : p.dot1x = true) {mac : Nat} {v filter : Option Nat}
    (hs : login c o st p mac v filter = some st') : Inv c (h ++ [.login n mac v filter]) st' := by
  have hnum := ok.number n p hp
  unfold login at hs
  obtain ⟨ms, hms, hs⟩ := Option.map_eq_some_iff.1 hs
  have hsw : st'.sw = st.sw.execAll ms := by
    split at hs <;> (subst hs; rfl)
  unfold loginMsgs at hms
  obtain ⟨x, hx, hms⟩ := Option.bind_eq_some_iff.1 hms
  obtain ⟨y, hy, rfl⟩ := Option.map_eq_some_iff.1 hms
  intro s b hb ht
  rw [hsw] at hb
  have htame : ∀ m ∈ x ++ y ++ vlanMsgs o st p.number (newVlan c v), Tame m s := by
    intro m hm
    rcases List.mem_append.1 hm with hm | hm
    · rcases List.mem_append.1 hm with hm | hm
      · exact tame_port (mem_delUnauth ok hx hm).1.1 s
      · obtain ⟨f, rfl, hf⟩ := mem_addAuth ok hy hm
        exact tame_add hf.cmd s
    · exact tame_quiet (quiet_vlan oo _ _ _) hm ht
  rcases origin htame _ b hb with ⟨f, hf, hc, hsl, hbd⟩ | ⟨h1, _⟩
  · rcases List.mem_append.1 hf with hf | hf
    · rcases List.mem_append.1 hf with hf | hf
      · exact absurd hc ((mem_delUnauth ok hx hf).1.2 f rfl)
      · refine .auth n p hp hdot mac ?_ filter y f hy hf hsl hbd
        left
        rw [loggedIn_snoc]
        exact .inl ⟨v, filter, rfl⟩
    · exact (quiet_not_added (quiet_vlan oo _ _ _) hf hc (by rw [hsl]; exact ht)).elim
  · refine (hi s b h1 ht).mono ?_
    intro q pq m filter ms f _ _ _ _ _ hl
    left
    rw [loggedIn_snoc]
    exact .inr ⟨hl, by rintro (h | h | h) <;> cases h⟩

theorem inv_logoff {c : Cfg} (ok : CfgOk c) {o : Other} (oo : OtherOk c o) {h : List Ev} {st st' : St} (hi : Inv c h st)
    {n : Nat} {p : PortConf} (hp : c.ports.get? n = some p) (hdot : p.dot1x = true) {mac : Nat} {e : Ev}
    (he : e = .logoff n mac ∨ e = .fail n mac) (hs : logoff c o st p mac = some st') : Inv c (h ++ [e]) st' := by
  have hnum := ok.number n p hp
  unfold logoff at hs
  obtain ⟨ms, hms, hs⟩ := Option.map_eq_some_iff.1 hs
  have hsw : st'.sw = st.sw.execAll ms := by subst hs; rfl
  unfold logoffMsgs at hms
  obtain ⟨x, hx, hms⟩ := Option.bind_eq_some_iff.1 hms
  obtain ⟨y, hy, rfl⟩ := Option.map_eq_some_iff.1 hms
  intro s b hb ht
  rw [hsw] at hb
  have htame : ∀ m ∈ x ++ unVlanMsgs o st p.number ++ y, Tame m s := by
    intro m hm
    rcases List.mem_append.1 hm with hm | hm
    · rcases List.mem_append.1 hm with hm | hm
      · exact tame_port (mem_delAuth ok hx hm).1.1 s
      · exact tame_quiet (quiet_unVlan oo _ _) hm ht
    · obtain ⟨_, a, fs, f, _, _, _, rfl, hf⟩ := mem_addUnauth ok hy hm
      exact tame_add hf.cmd s
  rcases origin htame _ b hb with ⟨f, hf, hc, hsl, hbd⟩ | ⟨h1, h2⟩
  · rcases List.mem_append.1 hf with hf | hf
    · rcases List.mem_append.1 hf with hf | hf
      · exact absurd hc ((mem_delAuth ok hx hf).1.2 f rfl)
      · exact (quiet_not_added (quiet_unVlan oo _ _) hf hc (by rw [hsl]; exact ht)).elim
    · obtain ⟨k1, a, fs, g, k2, k3, k4, hg, _⟩ := mem_addUnauth ok hy hf
      injection hg with hg
      subst hg
      rw [hnum] at k3
      exact .noauth n p hp hdot k1 a fs f k2 k3 k4 hsl hbd
  · refine (hi s b h1 ht).mono ?_
    intro q pq m filter ms f hq _ hadd hmem hslot hl
    by_cases hqn : q = n ∧ m = mac
    · obtain ⟨rfl, rfl⟩ := hqn
      rw [hp] at hq
      injection hq with hq
      subst hq
      exfalso
      obtain ⟨d, hd1, hd2⟩ := delAuth_kills ok (ok.oneKind _ _ hp) hx hadd hmem b
      rw [hslot] at hd2
      rw [h2 d (by simp [hd1])] at hd2
      cases hd2
    · left
      rw [loggedIn_snoc]
      refine .inr ⟨hl, ?_⟩
      rintro (h | h | h)
      · rcases he with rfl | rfl
        · injection h with h1 h2
          exact hqn ⟨h1.symm, h2.symm⟩
        · cases h
      · rcases he with rfl | rfl
        · cases h
        · injection h with h1 h2
          exact hqn ⟨h1.symm, h2.symm⟩
      · rcases he with rfl | rfl <;> cases h

theorem dot1xPort_get {c : Cfg} {n : Nat} {p : PortConf} (h : dot1xPort c n = some p) :
    c.ports.get? n = some p ∧ p.dot1x = true := by
  unfold dot1xPort at h
  rw [Option.filter_eq_some_iff] at h
  exact h

theorem inv_step {c : Cfg} (ok : CfgOk c) {o : Other} (oo : OtherOk c o) {h : List Ev} {st st' : St} (hi : Inv c h st)
    {e : Ev} (hs : step c o st e = some st') : Inv c (h ++ [e]) st' := by
  have hunknown : ∀ n, c.ports.get? n = none → (e = .up n ∨ e = .down n) → Inv c (h ++ [e]) st := by
    intro n hn he s b hb ht
    refine (hi s b hb ht).mono ?_
    intro q pq m filter ms f hq _ _ _ _ hl
    left
    rw [loggedIn_snoc]
    refine .inr ⟨hl, ?_⟩
    rintro (h | h | h)
    · rcases he with rfl | rfl <;> cases h
    · rcases he with rfl | rfl <;> cases h
    · rcases he with rfl | rfl
      · cases h
      · injection h with h
        subst h
        rw [hn] at hq
        cases hq
  cases e with
  | up n =>
    simp only [step] at hs
    cases hp : c.ports.get? n with
    | none =>
      rw [hp] at hs
      injection hs with hs
      subst hs
      exact hunknown n hp (.inl rfl)
    | some p =>
      rw [hp] at hs
      exact inv_up ok oo hi hp hs
  | down n =>
    simp only [step] at hs
    cases hp : c.ports.get? n with
    | none =>
      rw [hp] at hs
      injection hs with hs
      subst hs
      exact hunknown n hp (.inr rfl)
    | some p =>
      rw [hp] at hs
      exact inv_down ok oo hi hp hs
  | login n mac v f =>
    simp only [step] at hs
    obtain ⟨p, hp, hs⟩ := Option.bind_eq_some_iff.1 hs
    obtain ⟨h1, h2⟩ := dot1xPort_get hp
    exact inv_login ok oo hi h1 h2 hs
  | logoff n mac =>
    simp only [step] at hs
    obtain ⟨p, hp, hs⟩ := Option.bind_eq_some_iff.1 hs
    obtain ⟨h1, h2⟩ := dot1xPort_get hp
    exact inv_logoff ok oo hi h1 h2 (.inl rfl) hs
  | fail n mac =>
    simp only [step] at hs
    obtain ⟨p, hp, hs⟩ := Option.bind_eq_some_iff.1 hs
    obtain ⟨h1, h2⟩ := dot1xPort_get hp
    exact inv_logoff ok oo hi h1 h2 (.inr rfl) hs
  | reload =>
    simp only [step] at hs
    injection hs with hs
    subst hs
    intro s b hb ht
    refine (hi s b hb ht).mono ?_
    intro q pq m filter ms f _ _ _ _ _ hl
    left
    rw [loggedIn_snoc]
    exact .inr ⟨hl, by rintro (h | h | h) <;> cases h⟩

theorem run_snoc (c : Cfg) (o : Other) (st : St) (h : List Ev) (e : Ev) :
    run c o st (h ++ [e]) = (run c o st h).bind (fun s => step c o s e) := by
  unfold run
  rw [List.foldlM_append]
  simp only [List.foldlM_cons, List.foldlM_nil]
  cases List.foldlM (step c o) st h with
  | none => rfl
  | some s =>
    show (step c o s e).bind _ = step c o s e
    cases step c o s e <;> rfl

/-- Every flow of the port ACL table is known, whatever has happened. -/
theorem inv_run {c : Cfg} (ok : CfgOk c) {o : Other} (oo : OtherOk c o) {st0 st : St} (fresh : Fresh c st0) (h : List Ev)
    (hr : run c o st0 h = some st) : Inv c h st := by
  induction h using List.reverseRecOn generalizing st with
  | nil =>
    simp only [run, List.foldlM_nil] at hr
    injection hr with hr
    subst hr
    intro s b hb ht
    obtain ⟨h1, h2, h3⟩ := fresh s b hb ht
    exact .base h1 h2 h3
  | append_singleton h e ih =>
    rw [run_snoc] at hr
    obtain ⟨s1, h1, h2⟩ := Option.bind_eq_some_iff.1 hr
    exact inv_step ok oo (ih h1) h2

end Faucet.Dot1x
