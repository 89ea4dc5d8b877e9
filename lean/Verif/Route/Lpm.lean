import Verif.Route.Props

/-!
# C16: the longest prefix wins, after every history
-/

namespace Faucet.Route
open Faucet.OF Faucet Faucet.FlowReorder

/-! ## Specification -/

/-- The addresses and prefixes of an operation are such. -/
def OpOk (m : Mgr) : Op → Prop
  | .announce _ _ dst => NetOk m.width dst
  | .hostPkt _ _ _ _ ip => ip < 2 ^ m.width
  | .askVip _ _ _ _ src _ => src < 2 ^ m.width
  | .toHost _ _ _ _ src dst => src < 2 ^ m.width ∧ dst < 2 ^ m.width
  | _ => True

/-- The prefix a static route is for is a proper one. -/
def RibOp.Ok (w : Nat) : RibOp → Prop
  | .add dst _ => NetOk w dst
  | .del _ => True

/-- Routing states and switches after any history at all: VLANs are added, operations of any kind in any order, and flows
of the FIB disappear. -/
inductive History (m : Mgr) : St → Switch → Prop
  | start (st : St) (sw : Switch) : Blank m sw →
      (∀ k, ∃ ops : List RibOp, (∀ o ∈ ops, o.Ok m.width) ∧ ribRun m.width ops = some (st k)) → History m st sw
  | vlan {st sw} (v : Vlan) : History m st sw → (∀ x ∈ v.vips, x.ip < 2 ^ m.width ∧ x.len ≤ m.width) →
      History m st (sw.execAll (deletesFirst (m.addVlan v)))
  | op {st sw} (e : Env) (o : Op) : History m st sw → OpOk m o →
      History m (m.step e st o).1 (sw.execAll (deletesFirst (flowMods (m.step e st o).2)))
  | lose {st sw sw'} : History m st sw → (∀ s, s.table = m.fib.id → sw'.flows s = sw.flows s ∨ sw'.flows s = none) →
      History m st sw'

/-! ## Proof -/

section
variable {m : Mgr} {st : St}

/-- All prefixes behind gateways are proper. -/
def GoodSt (m : Mgr) (st : St) : Prop := ∀ k gw d, d ∈ (st k).dsts gw → NetOk m.width d

/-- Messages that only delete, or add flows of proper prefixes. -/
def GoodMsgs (m : Mgr) (ms : List OfMsg) : Prop :=
  ∀ x ∈ ms, isDeletion x = true ∨ ∃ rv n b, x = put (m.slot rv n) b ∧ NetOk m.width n

/-- What is to be shown of an operation. -/
def GoodRes (m : Mgr) (r : St × List RMsg) : Prop := GoodSt m r.1 ∧ GoodMsgs m (flowMods r.2)

theorem good_nil : GoodMsgs m [] := fun _ h => (by cases h)

theorem good_append {a b : List OfMsg} (ha : GoodMsgs m a) (hb : GoodMsgs m b) : GoodMsgs m (a ++ b) := by
  intro x hx
  rcases List.mem_append.1 hx with h | h
  · exact ha x h
  · exact hb x h

theorem good_dels {a : List OfMsg} (h : ∀ x ∈ a, isDeletion x = true) : GoodMsgs m a := fun x hx => Or.inl (h x hx)

theorem good_puts (v : Vlan) {dst : Net} (h : NetOk m.width dst) (b : Body) :
    GoodMsgs m ((m.routed v).map (fun rv => put (m.slot rv dst) b)) := by
  intro x hx
  obtain ⟨rv, _, rfl⟩ := List.mem_map.1 hx
  exact Or.inr ⟨rv, dst, b, rfl, h⟩

theorem good_addResolved (v : Vlan) {dst : Net} (h : NetOk m.width dst) (mac : Nat) (u : Bool) :
    GoodMsgs m (m.addResolved v dst mac u) := by
  unfold Mgr.addResolved
  refine good_append ?_ ?_
  · split
    · rw [delRouteFlows_eq]
      refine good_dels ?_
      intro x hx
      obtain ⟨rv, _, rfl⟩ := List.mem_map.1 hx
      rfl
    · exact good_nil
  · rw [routeFlows_eq]; exact good_puts v h _

theorem goodSt_upd (h : GoodSt m st) {vid : Nat} {s : VState} (hs : ∀ gw d, d ∈ s.dsts gw → NetOk m.width d) :
    GoodSt m (st.upd vid s) := by
  intro k gw d hd
  by_cases hk : k = vid
  · subst hk; rw [upd_self] at hd; exact hs gw d hd
  · rw [upd_ne _ _ hk] at hd; exact h k gw d hd

theorem good_update (h : GoodSt m st) (now : Int) (v : Vlan) (port mac gw : Nat) : GoodRes m (m.updateNexthop st now v port mac gw) := by
  constructor
  · exact goodSt_upd h (fun g d hd => h v.vid g d hd)
  · unfold Mgr.updateNexthop
    rw [flowMods_of]
    unfold Mgr.nexthopFlows
    split
    · intro x hx
      obtain ⟨d, hd, hx⟩ := List.mem_flatMap.1 hx
      exact good_addResolved v (h v.vid gw d hd) mac _ x hx
    · exact good_nil

theorem good_addRoute (h : GoodSt m st) (v : Vlan) (gw : Nat) {dst : Net} (hd : NetOk m.width dst) :
    GoodRes m (m.addRoute st v gw dst) := by
  unfold Mgr.addRoute
  split
  · exact ⟨h, good_nil⟩
  · rename_i u _
    split
    · exact ⟨h, good_nil⟩
    · split
      · exact ⟨h, good_nil⟩
      · constructor
        · refine goodSt_upd h ?_
          intro g d hdd
          rw [dsts_addRoute] at hdd
          split at hdd
          · rcases mem_setAdd.1 hdd with rfl | hdd
            · exact hd
            · exact h u.vid gw d hdd
          · exact h u.vid g d hdd
        · unfold Mgr.putRoute
          simp only
          split
          · rw [flowMods_of]; exact good_addResolved u hd _ _
          · exact good_nil

theorem good_delRoute (h : GoodSt m st) (v : Vlan) (dst : Net) : GoodRes m (m.delRoute st v dst) := by
  refine ⟨?_, good_dels (dels_delRoute v dst)⟩
  unfold Mgr.delRoute
  split
  · exact h
  · split
    · exact h
    · rename_i s hs
      refine goodSt_upd h ?_
      intro g d hdd
      obtain ⟨gw, _, rfl⟩ := delRoute_some hs
      rw [updateGwTypes_dsts, dsts_unsetRoute] at hdd
      split at hdd
      · exact h v.vid gw d (mem_setDel.1 hdd).1
      · exact h v.vid g d hdd

theorem good_addHost (h : GoodSt m st) (e : Env) (v : Vlan) {ip : Nat} (hip : ip < 2 ^ m.width) (hole : Bool) :
    GoodRes m (m.addHost e st v ip hole) := by
  have ha := good_addRoute h v ip (netOk_host hip)
  refine ⟨ha.1, ?_⟩
  unfold Mgr.addHost
  simp only
  rw [flowMods_append]
  refine good_append ?_ ha.2
  split
  · rw [flowMods_of, blackhole_eq]; exact good_puts v (netOk_host hip) _
  · exact good_nil

theorem good_learn (h : GoodSt m st) (e : Env) (now : Int) (v : Vlan) (port mac : Nat) {ip : Nat} (hip : ip < 2 ^ m.width) :
    GoodRes m (m.learnHost e st now v port mac ip) := by
  have h1 := good_addHost h e v hip false
  have h2 := good_update h1.1 now v port mac ip
  refine ⟨h2.1, ?_⟩
  unfold Mgr.learnHost
  simp only
  rw [flowMods_append]
  exact good_append h1.2 h2.2

theorem good_hostPkt (h : GoodSt m st) (e : Env) (now : Int) (v : Vlan) (port mac : Nat) {ip : Nat} (hip : ip < 2 ^ m.width) :
    GoodRes m (m.hostPkt e st now v port mac ip) := by
  unfold Mgr.hostPkt
  split
  · exact good_learn h e now v port mac hip
  · exact ⟨h, good_nil⟩

theorem good_resolveGw (h : GoodSt m st) (e : Env) (now : Int) (v : Vlan) (gw : Nat) (n : NextHop) :
    GoodRes m (m.resolveGw e st now v gw n) := by
  refine ⟨?_, by rw [mended_resolveGw]; exact good_nil⟩
  unfold Mgr.resolveGw
  split
  · exact goodSt_upd h (fun g d hd => h v.vid g d hd)
  · exact h

theorem good_startHop (h : GoodSt m st) (e : Env) (now : Int) (v : Vlan) (dst : Nat) (b : Bool) :
    GoodRes m (m.startHop e st now v dst b) := by
  unfold Mgr.startHop
  have h1 : GoodSt m (st.upd v.vid ((st v.vid).setHop dst (NextHop.new none none now))) :=
    goodSt_upd h (fun g d hd => h v.vid g d hd)
  split
  · exact ⟨h1, good_nil⟩
  · exact good_resolveGw h1 e now v dst _

theorem good_expire (h : GoodSt m st) (v : Vlan) (gw : Nat) (n : NextHop) : GoodRes m (m.expireGw st v gw n) := by
  have h1 : GoodSt m (st.upd v.vid ((st v.vid).delHop gw)) := goodSt_upd h (fun g d hd => h v.vid g d hd)
  have h2 := good_delRoute h1 v (hostNet m.width gw)
  exact ⟨h2.1, good_dels (dels_expire v gw n)⟩

theorem good_handler (h : GoodSt m st) (hosts : Bool) (e : Env) (now : Int) (v : Vlan) (gw : Nat) (n : NextHop) :
    GoodRes m (m.handler hosts e st now v gw n) := by
  unfold Mgr.handler
  cases hosts
  · exact good_resolveGw h e now v gw n
  · simp only [if_true, Mgr.resolveExpire]
    split
    · exact good_expire h v gw n
    · exact good_resolveGw h e now v gw n

theorem good_loop (hosts : Bool) (e : Env) (now : Int) (v : Vlan) (gws : List Nat) (r : Int) (h : GoodSt m st) :
    GoodSt m (m.resolveLoop e hosts now v gws r st).1 := by
  induction gws generalizing r st with
  | nil => exact h
  | cons gw gws ih =>
    rcases loop_cons m e hosts now v gw gws r st with ⟨_, hq⟩ | ⟨_, _, hq⟩ | ⟨n, r', st', ms, _, _, _, hh, _, hq⟩
    · rw [hq]; exact h
    · rw [hq]; exact ih r h
    · rw [hq]
      refine ih r' ?_
      have : st' = (m.handler hosts e st now v gw n).1 := by rw [hh]
      rw [this]
      exact (good_handler h hosts e now v gw n).1

theorem dsts_touch (now : Int) (s : VState) (gw g : Nat) : (s.touch now gw).dsts g = s.dsts g := by
  unfold VState.touch
  split <;> rfl

theorem dsts_touches (now : Int) (l : List Nat) (s : VState) (g : Nat) : (l.foldl (VState.touch now) s).dsts g = s.dsts g := by
  induction l generalizing s with
  | nil => rfl
  | cons a l ih => rw [List.foldl_cons, ih, dsts_touch]

theorem dsts_setUnres (s : VState) (hosts : Bool) (l : List Nat) (g : Nat) : (s.setUnres hosts l).dsts g = s.dsts g := by
  unfold VState.setUnres
  split <;> rfl

theorem dsts_pick (e : Env) (s : VState) (hosts all : Bool) (now : Int) (g : Nat) : (m.pick e s hosts all now).1.dsts g = s.dsts g := by
  unfold Mgr.pick
  split
  · simp only [dsts_setUnres, Mgr.unresolved, dsts_touches]
  · split
    · rfl
    · rw [dsts_setUnres]

theorem good_expireAll (v : Vlan) (l : List (Nat × NextHop)) (h : GoodSt m st) : GoodSt m (m.expireAll v l st).1 := by
  induction l generalizing st with
  | nil => exact h
  | cons y l ih => exact ih (good_expire h v y.1 y.2).1

theorem good_portDown (port : Nat) (us : List Vlan) (h : GoodSt m st) : GoodSt m (m.portDown port us st).1 := by
  induction us generalizing st with
  | nil => exact h
  | cons v us ih => exact ih (good_expireAll v _ h)

theorem good_step (h : GoodSt m st) (e : Env) {o : Op} (ho : OpOk m o) : GoodRes m (m.step e st o) := by
  cases o with
  | announce v gw dst => exact good_addRoute h v gw ho
  | withdraw v dst => exact good_delRoute h v dst
  | hostPkt now v port mac ip => exact good_hostPkt h e now v port mac ho
  | askVip now v port mac src target =>
    show GoodRes m (m.askVip e st now v port mac src target)
    unfold Mgr.askVip
    split
    · split
      · have h1 := good_learn h e now v port mac ho
        refine ⟨h1.1, ?_⟩
        simp only
        rw [flowMods_append]
        exact good_append h1.2 good_nil
      · exact ⟨h, good_nil⟩
    · exact ⟨h, good_nil⟩
  | advert now v port mac target =>
    show GoodRes m (m.advert st now v port mac target)
    unfold Mgr.advert
    split
    · exact good_update h now v port mac target
    · exact ⟨h, good_nil⟩
  | toHost now v port mac src dst =>
    show GoodRes m (m.toHost e st now v port mac src dst)
    unfold Mgr.toHost
    split
    · split
      · rename_i u x _
        split
        · have h1 := good_hostPkt h e now v port mac ho.1
          have h2 := good_addHost h1.1 e u ho.2 true
          have h3 := good_startHop h2.1 e now u dst (((m.hostPkt e st now v port mac src).1 u.vid).hostGws.contains dst)
          refine ⟨h3.1, ?_⟩
          unfold Mgr.seekHost
          simp only
          rw [flowMods_append, flowMods_append]
          exact good_append (good_append h1.2 h2.2) h3.2
        · exact ⟨h, good_nil⟩
      · exact ⟨h, good_nil⟩
    · exact ⟨h, good_nil⟩
  | resolve hosts all now v =>
    refine ⟨?_, good_dels (dels_loop hosts e now v _ _ _)⟩
    refine good_loop hosts e now v _ _ (goodSt_upd h ?_)
    intro gw d hd
    rw [dsts_pick] at hd
    exact h v.vid gw d hd
  | portDown port us => exact ⟨good_portDown port us h, good_dels (dels_portDown port us st)⟩

theorem onFlow_deletion {x : OfMsg} (h : isDeletion x = true) {s : Slot} {y : Option Body} {b : Body} (hy : x.onFlow s y = some b) :
    y = some b := by
  have key : ∀ f : Body → Bool, y.filter f = some b → y = some b := by
    intro f hf
    rw [Option.filter_eq_some_iff] at hf
    exact hf.1
  cases x with
  | flow f =>
    cases hc : f.cmd <;> simp [isDeletion, hc] at h
    · simp only [OfMsg.onFlow, hc] at hy; exact key _ hy
    · simp only [OfMsg.onFlow, hc] at hy; exact key _ hy
  | _ => exact key _ hy

theorem shaped_after {ms : List OfMsg} (hg : GoodMsgs m ms) {F : Slot → Option Body} (h : Shaped m F) :
    Shaped m (fun s => slotAfter ms s (F s)) := by
  intro s b hs ht
  have key : ∀ (ms : List OfMsg), GoodMsgs m ms → ∀ y, slotAfter ms s y = some b →
      y = some b ∨ ∃ rv n, s = m.slot rv n ∧ NetOk m.width n := by
    intro ms
    induction ms with
    | nil => intro _ y hy; exact Or.inl hy
    | cons x ms ih =>
      intro hg y hy
      rw [slotAfter_cons] at hy
      rcases ih (fun x hx => hg x (List.mem_cons_of_mem _ hx)) _ hy with h | h
      · rcases hg x (by simp) with hd | ⟨rv, n, b', rfl, hn⟩
        · exact Or.inl (onFlow_deletion hd h)
        · rw [onFlow_put] at h
          split at h
          · rename_i he; exact Or.inr ⟨rv, n, he.symm, hn⟩
          · exact Or.inl h
      · exact Or.inr h
  rcases key ms hg _ hs with h1 | h1
  · exact h s b h1 ht
  · exact Or.inr h1

theorem good_deletesFirst {ms : List OfMsg} (h : GoodMsgs m ms) : GoodMsgs m (deletesFirst ms) := by
  intro x hx
  unfold deletesFirst at hx
  rcases List.mem_append.1 hx with hx | hx
  · exact h x (List.mem_filter.1 hx).1
  · exact h x (List.mem_filter.1 hx).1

theorem shaped_exec {ms : List OfMsg} (hg : GoodMsgs m ms) {sw : Switch} (h : Shaped m sw.flows) :
    Shaped m (sw.execAll (deletesFirst ms)).flows := by
  have : (sw.execAll (deletesFirst ms)).flows = fun s => slotAfter (deletesFirst ms) s (sw.flows s) := by
    funext s; exact execAll_flows _ sw s
  rw [this]
  exact shaped_after (good_deletesFirst hg) h

theorem good_rib (w : Nat) (ops : List RibOp) (h : ∀ o ∈ ops, o.Ok w) (s : VState) (hr : ribRun w ops = some s) :
    ∀ gw d, d ∈ s.dsts gw → NetOk w d := by
  induction ops generalizing s with
  | nil => injection hr with hr; subst hr; intro gw d hd; cases hd
  | cons op ops ih =>
    simp only [ribRun] at hr
    cases ht : ribRun w ops with
    | none => rw [ht] at hr; cases hr
    | some t =>
      rw [ht] at hr
      simp only [Option.bind_some] at hr
      have ih := ih (fun o ho => h o (List.mem_cons_of_mem _ ho)) t ht
      intro g d hd
      cases op with
      | add dst gw =>
        simp only [ribStep] at hr
        injection hr with hr
        subst hr
        rw [dsts_addRoute] at hd
        split at hd
        · rcases mem_setAdd.1 hd with rfl | hd
          · exact h (.add d gw) (by simp)
          · exact ih _ d hd
        · exact ih _ d hd
      | del dst =>
        simp only [ribStep] at hr
        split at hr
        · obtain ⟨gw, _, rfl⟩ := delRoute_some hr
          rw [updateGwTypes_dsts, dsts_unsetRoute] at hd
          split at hd
          · exact ih _ d (mem_setDel.1 hd).1
          · exact ih _ d hd
        · injection hr with hr; subst hr; exact ih _ d hd

theorem history_good {sw : Switch} (h : History m st sw) : GoodSt m st ∧ Shaped m sw.flows := by
  induction h with
  | start st sw hb hr =>
    constructor
    · intro k gw d hd
      obtain ⟨ops, ho, hr⟩ := hr k
      exact good_rib m.width ops ho _ hr gw d hd
    · intro s b hs ht
      exact Or.inl (hb s b hs ht).1
  | @vlan st sw v _ hv ih =>
    refine ⟨ih.1, shaped_exec ?_ ih.2⟩
    intro x hx
    have hx' : x ∈ [v].flatMap m.addVlan := by rw [List.flatMap_singleton]; exact hx
    obtain ⟨u, hu, y, hy, rv, h⟩ := addVlan_puts m [v] x hx'
    rw [List.mem_singleton] at hu
    subst hu
    have hy' := hv y hy
    rcases h with h | h
    · exact Or.inr ⟨rv, _, _, h, netOk_host hy'.1⟩
    · exact Or.inr ⟨rv, _, _, h, netOk_vip hy'.1 hy'.2⟩
  | op e o _ ho ih =>
    have := good_step ih.1 e ho
    exact ⟨this.1, shaped_exec this.2 ih.2⟩
  | lose _ hl ih =>
    refine ⟨ih.1, ?_⟩
    intro s b hs ht
    rcases hl s ht with h | h
    · exact ih.2 s b (by rw [← h]; exact hs) ht
    · rw [h] at hs; cases hs

theorem exists_longest {w : Nat} {Q : Net → Prop} (hw : ∀ n, Q n → n.len ≤ w) (hex : ∃ n, Q n) :
    ∃ n, Q n ∧ ∀ n', Q n' → n'.len ≤ n.len := by
  by_contra hno
  have step : ∀ n, Q n → ∃ n', Q n' ∧ n.len < n'.len := by
    intro n hn
    by_contra hc
    refine hno ⟨n, hn, fun n' hn' => ?_⟩
    by_contra hl
    exact hc ⟨n', hn', by omega⟩
  have grow : ∀ k, ∃ n, Q n ∧ k ≤ n.len := by
    intro k
    induction k with
    | zero => obtain ⟨n, hn⟩ := hex; exact ⟨n, hn, by omega⟩
    | succ k ih =>
      obtain ⟨n, hn, hk⟩ := ih
      obtain ⟨n', hn', hl⟩ := step n hn
      exact ⟨n', hn', by omega⟩
  obtain ⟨n, hn, hk⟩ := grow (w + 1)
  have := hw n hn
  omega

/-! ## Property -/

/-- C16. After every history: if the FIB has flows for prefixes that contain the destination address of a packet, in the
traffic of the packet's VLAN, the switch finds a flow for the packet, and it is that of the longest of these prefixes. -/
theorem longest_prefix (hf : m.ipDst ≠ fVlanVid ∧ m.ipDst ≠ fVlanPcp) {sw : Switch} (h : History m st sw) {p : Pkt}
    {vid ip : Nat} (hp : IpPkt m p vid ip) (hex : ∃ n, Installed m sw vid n ∧ n.contains m.width ip = true) :
    (∃ s b, Hit sw m.fib.id p s b) ∧
    ∀ s b, Hit sw m.fib.id p s b → ∃ n, s = m.slot vid n ∧ n.contains m.width ip = true ∧
      ∀ n', Installed m sw vid n' → n'.contains m.width ip = true → n' ≠ n → n'.len < n.len := by
  have hsh := (history_good h).2
  have hnet : ∀ n', Installed m sw vid n' → NetOk m.width n' := by
    rintro n' ⟨b', hb'⟩
    rcases hsh _ b' hb' rfl with h | ⟨rv, n, h, hn⟩
    · unfold Mgr.slot Mgr.routePriority at h
      simp only at h
      omega
    · rw [(slot_net h).1]; exact hn
  constructor
  · obtain ⟨n, ⟨⟨b, hb⟩, hcn⟩, hmax⟩ := exists_longest (w := m.width)
      (Q := fun n => Installed m sw vid n ∧ n.contains m.width ip = true) (fun n hn => (hnet n hn.1).1) hex
    refine ⟨m.slot vid n, b, hb, rfl, (hits_slot hf hp (hnet n ⟨b, hb⟩)).2 ⟨rfl, hcn⟩, ?_⟩
    intro s' b' hs' ht' hh'
    rcases hsh s' b' hs' ht' with h | ⟨rv', n', rfl, hn'⟩
    · unfold Mgr.slot Mgr.routePriority
      simp only
      omega
    · have h2 := (hits_slot hf hp hn').1 hh'
      have := hmax n' ⟨⟨b', by rw [← slot_vid h2.1]; exact hs'⟩, h2.2⟩
      unfold Mgr.slot Mgr.routePriority
      simp only
      omega
  · intro s b hit
    obtain ⟨n, h1, _, h3, h4⟩ := longest_of_shape hf hsh hp hex hit
    refine ⟨n, h1, h3, ?_⟩
    intro n' hin hcn hne
    have := h4 n' hin hcn
    rcases Nat.lt_or_eq_of_le this.1 with h | h
    · exact h
    · exact absurd (this.2 h) hne

end

end Faucet.Route
