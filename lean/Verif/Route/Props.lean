import Verif.Route.Inv

/-!
# C20, C58: the FIB of a switch during any history
-/

namespace Faucet.Route
open Faucet.OF Faucet Faucet.FlowReorder

/-! ## Specification -/

/-- A proper prefix: at most `w` long and without host bits. -/
def NetOk (w : Nat) (n : Net) : Prop := n.len ≤ w ∧ n.addr &&& mask w n.len = n.addr ∧ n.addr < 2 ^ w

/-- The rest of the configuration: VIPs are addresses, and the destination address is not a VLAN field. -/
structure VipsOk (m : Mgr) (vs : List Vlan) : Prop where
  vips : ∀ v ∈ vs, ∀ x ∈ v.vips, x.ip < 2 ^ m.width ∧ x.len ≤ m.width
  field : m.ipDst ≠ fVlanVid ∧ m.ipDst ≠ fVlanPcp

/-- When an operation is within the claims. Routes: a prefix is not given another gateway while it has one, nor routed in two
VLANs that share FIB entries; a host route to a connected host goes via the host. Only prefixes satisfying `P` are routed.
Proactive learning: no host is sought whose MAC is known but that has no route. -/
def Tame (m : Mgr) (vs : List Vlan) (P : Net → Prop) (st : St) : Op → Prop
  | .announce v gw dst => v ∈ vs ∧ P dst ∧ (∀ u, m.gwVlan v gw = some u → Addable m vs st u gw dst) ∧
      (∀ ip, dst = hostNet m.width ip → gw = ip ∨ ∀ u ∈ vs, u.vipMap m.width ip = none)
  | .withdraw v _ => v ∈ vs
  | .hostPkt _ v _ _ ip => v ∈ vs ∧ ((v.subnetVip m.width ip).isSome → P (hostNet m.width ip))
  | .askVip _ v _ _ src _ => v ∈ vs ∧ ((v.subnetVip m.width src).isSome → P (hostNet m.width src))
  | .advert _ v _ _ _ => v ∈ vs
  | .toHost _ v _ _ src dst => v ∈ vs ∧ ((v.subnetVip m.width src).isSome → P (hostNet m.width src)) ∧
      ∀ u x, m.vipFor v dst = some (u, x) → m.wantsHost st u x dst = true → P (hostNet m.width dst) ∧
        ((st u.vid).eth dst ≠ none → (st u.vid).routes.get? (hostNet m.width dst) ≠ none)
  | .resolve _ _ _ v => v ∈ vs
  | .portDown _ us => ∀ v ∈ us, v ∈ vs

/-- What else happens to the FIB: flows with a timeout disappear. Other tables change freely. -/
def Calm (m : Mgr) (sw sw' : Switch) : Prop :=
  ∀ s, s.table = m.fib.id → sw'.flows s = sw.flows s ∨ ∃ b, sw.flows s = some b ∧ (b.hard ≠ 0 ∨ b.idle ≠ 0) ∧ sw'.flows s = none

/-- The switch when the VLANs have been added. -/
def boot (m : Mgr) (vs : List Vlan) (sw0 : Switch) : Switch := sw0.execAll (deletesFirst (vs.flatMap m.addVlan))

/-- Static routes: each VLAN's routes are those its configuration adds, via gateways of its networks. -/
structure Static (m : Mgr) (vs : List Vlan) (P : Net → Prop) (st : St) : Prop where
  rib : ∀ v ∈ vs, ∃ ops, Steady ops ∧ ribRun m.width ops = some (st v.vid)
  gws : ∀ v ∈ vs, ∀ dst gw, (st v.vid).routes.get? dst = some gw → (v.vipMap m.width gw).isSome ∧ P dst ∧
    ∀ ip, dst = hostNet m.width ip → gw = ip ∨ ∀ u ∈ vs, u.vipMap m.width ip = none
  uniq : ∀ u ∈ vs, ∀ v ∈ vs, ∀ rv dst, rv ∈ m.routed u → rv ∈ m.routed v → (st u.vid).routes.get? dst ≠ none →
    (st v.vid).routes.get? dst ≠ none → u = v

/-- A switch without FIB flows but those of low priority. -/
def Blank (m : Mgr) (sw : Switch) : Prop :=
  ∀ s b, sw.flows s = some b → s.table = m.fib.id → s.priority < lpmPriority ∧ b.hard = 0 ∧ b.idle = 0

/-- Routing states and switches after any history of operations within the claims. -/
inductive Reach (m : Mgr) (vs : List Vlan) (P : Net → Prop) (st0 : St) (sw0 : Switch) : St → Switch → Prop
  | start : Reach m vs P st0 sw0 st0 (boot m vs sw0)
  | op {st sw} (e : Env) (o : Op) : Reach m vs P st0 sw0 st sw → (∀ l, (e.shuffle l).Perm l) → Tame m vs P st o →
      Reach m vs P st0 sw0 (m.step e st o).1 (sw.execAll (deletesFirst (flowMods (m.step e st o).2)))
  | calm {st sw sw'} : Reach m vs P st0 sw0 st sw → Calm m sw sw' → Reach m vs P st0 sw0 st sw'

/-- A packet of a VLAN to an IP address. -/
structure IpPkt (m : Mgr) (p : Pkt) (vid ip : Nat) : Prop where
  tag : ∃ pcp rest, p.tags = (vid, pcp) :: rest
  vid : vid < 4096
  type : p.hdr fEthType = some m.ethType
  dst : p.hdr m.ipDst = some ip

/-- Traffic of VLAN `rv` uses the routes of the VLAN: it is that VLAN, or they share a router; with global routing all traffic
to be routed is in the global VLAN. -/
def Serves (m : Mgr) (v : Vlan) (rv : Nat) : Prop :=
  if m.globalVid ≠ 0 ∧ m.routers.length = 1 then rv = m.globalVid
  else rv = v.vid ∨ ∃ r ∈ m.routers, (∃ u ∈ r.vlans, u.vid = v.vid) ∧ ∃ u ∈ r.vlans, u.vid = rv

/-- There is a flow for the prefix in the traffic of the VLAN. -/
def Installed (m : Mgr) (sw : Switch) (vid : Nat) (n : Net) : Prop := ∃ b, sw.flows (m.slot vid n) = some b

/-! ## Operations keep the invariant -/

section
variable {m : Mgr} {vs : List Vlan} {P : Net → Prop} {F0 : Slot → Option Body} {st : St} {F : Slot → Option Body}

/-- Whoever has a MAC has a host route. -/
def Sought (m : Mgr) (st : St) (u : Vlan) (dst : Nat) : Prop :=
  (st u.vid).eth dst ≠ none → (st u.vid).routes.get? (hostNet m.width dst) ≠ none

theorem addRoute_self (hc : ConfOk m vs) {v : Vlan} (hv : v ∈ vs) {ip : Nat} (h : (v.vipMap m.width ip).isSome) :
    m.addRoute st v ip (hostNet m.width ip) =
      if (st v.vid).routes.get? (hostNet m.width ip) = some ip then (st, []) else m.putRoute st v ip (hostNet m.width ip) := by
  unfold Mgr.addRoute
  rw [gwVlan_self hc hv h]
  simp [Vlan.isVipNet]

theorem addRoute_routed (hc : ConfOk m vs) {v : Vlan} (hv : v ∈ vs) {ip : Nat} (h : (v.vipMap m.width ip).isSome) :
    ((m.addRoute st v ip (hostNet m.width ip)).1 v.vid).routes.get? (hostNet m.width ip) = some ip := by
  rw [addRoute_self hc hv h]
  split
  · assumption
  · unfold Mgr.putRoute
    simp only [upd_self]
    rw [routes_addRoute, Dict.get?_set_self]

theorem addRoute_keeps (hc : ConfOk m vs) {v : Vlan} (hv : v ∈ vs) {ip : Nat} (h : (v.vipMap m.width ip).isSome) {k : Nat}
    {d : Net} (hk : (st k).routes.get? d ≠ none) :
    ((m.addRoute st v ip (hostNet m.width ip)).1 k).routes.get? d ≠ none := by
  rw [addRoute_self hc hv h]
  split
  · exact hk
  · unfold Mgr.putRoute
    by_cases hkv : k = v.vid
    · subst hkv
      simp only [upd_self]
      rw [routes_addRoute, Dict.get?_set]
      split
      · simp
      · exact hk
    · simp only [upd_ne _ _ hkv]; exact hk

theorem addRoute_eth (hc : ConfOk m vs) {v : Vlan} (hv : v ∈ vs) {ip : Nat} (h : (v.vipMap m.width ip).isSome) (k g : Nat) :
    ((m.addRoute st v ip (hostNet m.width ip)).1 k).eth g = (st k).eth g := by
  rw [addRoute_self hc hv h]
  split
  · rfl
  · unfold Mgr.putRoute
    by_cases hkv : k = v.vid
    · subst hkv
      simp only [upd_self]
      unfold VState.addRoute VState.eth
      rw [updateGwTypes_cache]
      rfl
    · simp only [upd_ne _ _ hkv]

theorem sought_hostPkt (hc : ConfOk m vs) {v u : Vlan} (hv : v ∈ vs) (hu : u ∈ vs) (e : Env) (now : Int) (port mac src dst : Nat)
    (h : Sought m st u dst) : Sought m (m.hostPkt e st now v port mac src).1 u dst := by
  unfold Mgr.hostPkt
  split
  · rename_i hs
    simp only [Bool.and_eq_true] at hs
    have hvm := vipMap_of_subnet hs.1
    unfold Mgr.learnHost Mgr.updateNexthop Sought
    simp only [Mgr.addHost]
    by_cases hk : u.vid = v.vid
    · have huv := hc.distinct u hu v hv hk
      subst huv
      simp only [upd_self]
      by_cases hd : dst = src
      · subst hd
        intro _
        show ((m.addRoute st u dst (hostNet m.width dst)).1 u.vid).routes.get? (hostNet m.width dst) ≠ none
        rw [addRoute_routed hc hu hvm]
        simp
      · intro he
        refine addRoute_keeps hc hu hvm (h ?_)
        intro hn
        apply he
        unfold VState.eth VState.setHop
        simp only
        rw [Dict.get?_set_ne _ _ (Ne.symm hd)]
        rw [← addRoute_eth hc hu hvm u.vid dst] at hn
        exact hn
    · simp only [upd_ne _ _ hk]
      rw [addRoute_eth hc hv hvm]
      intro he
      exact addRoute_keeps hc hv hvm (h he)
  · exact h

theorem inv_toHost (hc : ConfOk m vs) (hi : Inv m vs P F0 st F) {v : Vlan} (hv : v ∈ vs) (e : Env) (now : Int) (port mac src dst : Nat)
    (hP : (v.subnetVip m.width src).isSome → P (hostNet m.width src))
    (hd : ∀ u x, m.vipFor v dst = some (u, x) → m.wantsHost st u x dst = true → P (hostNet m.width dst) ∧ Sought m st u dst) :
    Inv m vs P F0 (m.toHost e st now v port mac src dst).1 (after (m.toHost e st now v port mac src dst).2 F) := by
  unfold Mgr.toHost
  split
  · split
    · rename_i u x hvf
      split
      · rename_i hw
        obtain ⟨hPd, hs⟩ := hd u x hvf hw
        obtain ⟨hu, _, hvm⟩ := vipFor_some hc hv hvf
        unfold Mgr.seekHost
        simp only
        rw [after_append, after_append]
        have h1 := inv_hostPkt hc hi hv e now port mac hP
        have hs1 := sought_hostPkt hc hv hu e now port mac src dst hs
        generalize hst1 : (m.hostPkt e st now v port mac src).1 = st1 at *
        generalize after (m.hostPkt e st now v port mac src).2 F = F1 at *
        -- adding the route sends nothing
        have hquiet : (m.addRoute st1 u dst (hostNet m.width dst)).2 = [] := by
          rw [addRoute_self hc hu hvm]
          split
          · rfl
          · rename_i hr
            unfold Mgr.putRoute
            cases he : (st1 u.vid).eth dst with
            | none => rfl
            | some mac' =>
              exfalso
              have := hs1 (by rw [he]; simp)
              cases hr' : (st1 u.vid).routes.get? (hostNet m.width dst) with
              | none => exact this hr'
              | some g =>
                rcases h1.conn u hu dst g hr' with rfl | hn
                · exact hr hr'
                · rw [hn u hu] at hvm; cases hvm
        have h2 := inv_addHost hc h1 hu hvm hPd
        have hr2 := addRoute_routed (st := st1) hc hu hvm
        rw [hquiet, after_nil] at h2
        unfold Mgr.addHost
        simp only [if_true]
        rw [hquiet, List.append_nil]
        generalize (m.addRoute st1 u dst (hostNet m.width dst)).1 = st2 at *
        have h3 := inv_hole hc h2 hu dst e.hard (NextHop.new none none now) rfl rfl hr2
        unfold Mgr.startHop
        split
        · exact h3
        · refine inv_resolveGw h3 hu e now dst (NextHop.new none none now) ?_
          rw [upd_self]
          simp [VState.setHop]
      · exact hi
    · exact hi
  · exact hi

theorem inv_expireAll (hc : ConfOk m vs) {v : Vlan} (hv : v ∈ vs) (l : List (Nat × NextHop)) (hl : ∀ x ∈ l, x.2.port ≠ none) :
    ∀ {st F}, Inv m vs P F0 st F → Inv m vs P F0 (m.expireAll v l st).1 (after (m.expireAll v l st).2 F) := by
  induction l with
  | nil => intro st F hi; exact hi
  | cons x l ih =>
    intro st F hi
    unfold Mgr.expireAll
    simp only
    rw [after_append]
    exact ih (fun y hy => hl y (List.mem_cons_of_mem _ hy)) (inv_expire hc hi hv x.1 x.2 (Or.inl (hl x (by simp))))

theorem inv_portDown (hc : ConfOk m vs) (port : Nat) (us : List Vlan) (hus : ∀ v ∈ us, v ∈ vs) :
    ∀ {st F}, Inv m vs P F0 st F → Inv m vs P F0 (m.portDown port us st).1 (after (m.portDown port us st).2 F) := by
  induction us with
  | nil => intro st F hi; exact hi
  | cons v us ih =>
    intro st F hi
    unfold Mgr.portDown
    simp only
    rw [after_append]
    refine ih (fun u hu => hus u (List.mem_cons_of_mem _ hu)) (inv_expireAll hc (hus v (by simp)) _ ?_ hi)
    intro x hx
    unfold VState.hopsOn at hx
    have := (List.mem_filter.1 hx).2
    intro hn
    rw [hn] at this
    simp at this

theorem inv_step (hc : ConfOk m vs) (hi : Inv m vs P F0 st F) {e : Env} (hsh : ∀ l, (e.shuffle l).Perm l) {o : Op}
    (ht : Tame m vs P st o) : Inv m vs P F0 (m.step e st o).1 (after (m.step e st o).2 F) := by
  cases o with
  | announce v gw dst => exact inv_add hc hi ht.1 gw dst ht.2.2.1 ht.2.1 ht.2.2.2
  | withdraw v dst => exact inv_del hc hi ht dst
  | hostPkt now v port mac ip => exact inv_hostPkt hc hi ht.1 e now port mac ht.2
  | askVip now v port mac src target => exact inv_askVip hc hi ht.1 e now port mac target ht.2
  | advert now v port mac target => exact inv_advert hc hi ht now port mac target
  | toHost now v port mac src dst => exact inv_toHost hc hi ht.1 e now port mac src dst ht.2.1 ht.2.2
  | resolve hosts all now v => exact inv_resolve hc hi ht hsh hosts all now
  | portDown port us => exact inv_portDown hc port us ht hi

/-! ## Batches -/

/-- Moving the deletions to the front makes no difference to the batch. -/
def Stable (ms : List RMsg) : Prop := ∀ s x, slotAfter (deletesFirst (flowMods ms)) s x = slotAfter (flowMods ms) s x

theorem stable_mended {ms : List RMsg} (h : Mended (flowMods ms)) : Stable ms := mended_reorder h
theorem stable_dels {ms : List RMsg} (h : ∀ x ∈ flowMods ms, isDeletion x = true) : Stable ms := by
  intro s x; rw [deletes_reorder h]

theorem mended_addRoute (hc : ConfOk m vs) (v : Vlan) (gw : Nat) (dst : Net) : Mended (flowMods (m.addRoute st v gw dst).2) := by
  unfold Mgr.addRoute
  split
  · trivial
  · split
    · trivial
    · split
      · trivial
      · unfold Mgr.putRoute
        simp only
        split
        · rw [flowMods_of]; exact mended_addResolved hc.table _ _ _ _
        · trivial

theorem mended_update (hc : ConfOk m vs) (now : Int) (v : Vlan) (port mac gw : Nat) :
    Mended (flowMods (m.updateNexthop st now v port mac gw).2) := by
  unfold Mgr.updateNexthop Mgr.nexthopFlows
  rw [flowMods_of]
  split
  · exact mended_flatMap _ _ (fun _ => mended_addResolved hc.table _ _ _ _)
  · trivial

theorem mended_learn (hc : ConfOk m vs) (e : Env) (now : Int) (v : Vlan) (port mac ip : Nat) :
    Mended (flowMods (m.learnHost e st now v port mac ip).2) := by
  unfold Mgr.learnHost
  simp only
  rw [flowMods_append]
  refine mended_append ?_ (mended_update hc _ _ _ _ _)
  unfold Mgr.addHost
  simp only [Bool.false_eq_true, if_false, List.nil_append]
  exact mended_addRoute hc _ _ _

theorem mended_hostPkt (hc : ConfOk m vs) (e : Env) (now : Int) (v : Vlan) (port mac ip : Nat) :
    Mended (flowMods (m.hostPkt e st now v port mac ip).2) := by
  unfold Mgr.hostPkt
  split
  · exact mended_learn hc _ _ _ _ _ _
  · trivial

theorem mended_resolveGw (e : Env) (now : Int) (v : Vlan) (gw : Nat) (n : NextHop) :
    flowMods (m.resolveGw e st now v gw n).2 = [] := by
  unfold Mgr.resolveGw
  split
  · exact flowMods_asks e v gw n
  · rfl

theorem dels_delRoute (v : Vlan) (dst : Net) : ∀ x ∈ flowMods (m.delRoute st v dst).2, isDeletion x = true := by
  unfold Mgr.delRoute
  split
  · intro x hx; cases hx
  · split
    · intro x hx; cases hx
    · rw [flowMods_of, delRouteFlows_eq]
      intro x hx
      obtain ⟨rv, _, rfl⟩ := List.mem_map.1 hx
      rfl

theorem dels_expire (v : Vlan) (gw : Nat) (n : NextHop) : ∀ x ∈ flowMods (m.expireGw st v gw n).2, isDeletion x = true := by
  unfold Mgr.expireGw
  simp only
  split
  · intro x hx; cases hx
  · exact dels_delRoute v _

theorem dels_append {a b : List RMsg} (ha : ∀ x ∈ flowMods a, isDeletion x = true) (hb : ∀ x ∈ flowMods b, isDeletion x = true) :
    ∀ x ∈ flowMods (a ++ b), isDeletion x = true := by
  rw [flowMods_append]
  intro x hx
  rcases List.mem_append.1 hx with h | h
  · exact ha x h
  · exact hb x h

theorem dels_loop (hosts : Bool) (e : Env) (now : Int) (v : Vlan) (gws : List Nat) (r : Int) (st : St) :
    ∀ x ∈ flowMods (m.resolveLoop e hosts now v gws r st).2, isDeletion x = true := by
  induction gws generalizing r st with
  | nil => intro x hx; cases hx
  | cons gw gws ih =>
    rcases loop_cons m e hosts now v gw gws r st with ⟨_, hq⟩ | ⟨_, _, hq⟩ | ⟨n, r', st', ms, _, _, _, hh, _, hq⟩
    · rw [hq]; intro x hx; cases hx
    · rw [hq]; exact ih r st
    · rw [hq]
      refine dels_append ?_ (ih r' st')
      have : ms = (m.handler hosts e st now v gw n).2 := by rw [hh]
      rw [this]
      unfold Mgr.handler
      cases hosts
      · simp only [Bool.false_eq_true, if_false]; rw [mended_resolveGw]; intro x hx; cases hx
      · simp only [if_true, Mgr.resolveExpire]
        split
        · exact dels_expire v gw n
        · rw [mended_resolveGw]; intro x hx; cases hx

theorem dels_expireAll (v : Vlan) (l : List (Nat × NextHop)) (st : St) :
    ∀ x ∈ flowMods (m.expireAll v l st).2, isDeletion x = true := by
  induction l generalizing st with
  | nil => intro x hx; cases hx
  | cons y l ih => exact dels_append (dels_expire v y.1 y.2) (ih _)

theorem dels_portDown (port : Nat) (us : List Vlan) (st : St) :
    ∀ x ∈ flowMods (m.portDown port us st).2, isDeletion x = true := by
  induction us generalizing st with
  | nil => intro x hx; cases hx
  | cons v us ih => exact dels_append (dels_expireAll v _ st) (ih _)

theorem stable_step (hc : ConfOk m vs) (e : Env) (o : Op) : Stable (m.step e st o).2 := by
  cases o with
  | announce v gw dst => exact stable_mended (mended_addRoute hc v gw dst)
  | withdraw v dst => exact stable_dels (dels_delRoute v dst)
  | hostPkt now v port mac ip => exact stable_mended (mended_hostPkt hc e now v port mac ip)
  | askVip now v port mac src target =>
    refine stable_mended ?_
    show Mended (flowMods (m.askVip e st now v port mac src target).2)
    unfold Mgr.askVip
    split
    · split
      · simp only
        rw [flowMods_append]
        exact mended_append (mended_learn hc _ _ _ _ _ _) trivial
      · trivial
    · trivial
  | advert now v port mac target =>
    refine stable_mended ?_
    show Mended (flowMods (m.advert st now v port mac target).2)
    unfold Mgr.advert
    split
    · exact mended_update hc _ _ _ _ _
    · trivial
  | toHost now v port mac src dst =>
    refine stable_mended ?_
    show Mended (flowMods (m.toHost e st now v port mac src dst).2)
    unfold Mgr.toHost
    split
    · split
      · split
        · unfold Mgr.seekHost
          simp only
          rw [flowMods_append, flowMods_append]
          refine mended_append (mended_append (mended_hostPkt hc _ _ _ _ _ _) ?_) ?_
          · unfold Mgr.addHost
            simp only [if_true]
            rw [flowMods_append, flowMods_of, blackhole_eq]
            exact mended_append (mended_puts _ _ _) (mended_addRoute hc _ _ _)
          · unfold Mgr.startHop
            split
            · trivial
            · rw [mended_resolveGw]; trivial
        · trivial
      · trivial
    · trivial
  | resolve hosts all now v => exact stable_dels (dels_loop hosts e now v _ _ _)
  | portDown port us => exact stable_dels (dels_portDown port us st)

end

/-! ## Masks -/

theorem and_mask {w len x : Nat} (hl : len ≤ w) (hx : x < 2 ^ w) : x &&& mask w len = x / 2 ^ (w - len) * 2 ^ (w - len) := by
  have hm : mask w len = (2 ^ len - 1) <<< (w - len) := by
    unfold mask
    rw [Nat.shiftLeft_eq, Nat.sub_mul, ← Nat.pow_add, Nat.one_mul]
    congr 2
    omega
  rw [hm, ← Nat.shiftRight_eq_div_pow, ← Nat.shiftLeft_eq]
  apply Nat.eq_of_testBit_eq
  intro i
  rw [Nat.testBit_and, Nat.testBit_shiftLeft, Nat.testBit_shiftLeft, Nat.testBit_two_pow_sub_one, Nat.testBit_shiftRight]
  by_cases h : i ≥ w - len
  · have h1 : w - len + (i - (w - len)) = i := by omega
    rw [h1]
    by_cases hi : i < w
    · have : i - (w - len) < len := by omega
      simp [h, this]
    · have : x.testBit i = false := Nat.testBit_lt_two_pow (Nat.lt_of_lt_of_le hx (Nat.pow_le_pow_right (by omega) (by omega)))
      simp [this]
  · simp [h]

/-- An address is in a prefix iff it agrees with it in the first `len` bits. -/
theorem contains_iff {w : Nat} {n : Net} (hn : NetOk w n) {ip : Nat} (hip : ip < 2 ^ w) :
    n.contains w ip = true ↔ ip / 2 ^ (w - n.len) = n.addr / 2 ^ (w - n.len) := by
  unfold Net.contains
  have h1 := and_mask hn.1 hip
  have h2 := and_mask hn.1 hn.2.2
  rw [hn.2.1] at h2
  simp only [beq_iff_eq]
  rw [h1]
  constructor
  · intro h
    rw [← h, Nat.mul_div_cancel _ (Nat.pow_pos (by omega))]
  · intro h
    rw [h]
    exact h2.symm

theorem mask_idem (w len x : Nat) : (x &&& mask w len) &&& mask w len = x &&& mask w len := by
  rw [Nat.and_assoc, Nat.and_self]

theorem netOk_host {w ip : Nat} (h : ip < 2 ^ w) : NetOk w (hostNet w ip) := by
  refine ⟨Nat.le_refl w, ?_, h⟩
  show ip &&& mask w w = ip
  rw [and_mask (Nat.le_refl w) h]
  simp

theorem netOk_vip {w : Nat} {x : Vip} (h : x.ip < 2 ^ w) (hl : x.len ≤ w) : NetOk w (x.net w) :=
  ⟨hl, mask_idem w x.len x.ip, Nat.lt_of_le_of_lt (Nat.and_le_left) h⟩

/-! ## The start -/

theorem rib_cache (w : Nat) (ops : List RibOp) (s : VState) (h : ribRun w ops = some s) : s.cache = [] ∧ s.unresHost = [] := by
  induction ops generalizing s with
  | nil => injection h with h; subst h; exact ⟨rfl, rfl⟩
  | cons op ops ih =>
    simp only [ribRun] at h
    cases hr : ribRun w ops with
    | none => rw [hr] at h; cases h
    | some t =>
      rw [hr] at h
      simp only [Option.bind_some] at h
      obtain ⟨h1, h2⟩ := ih t hr
      cases op with
      | add dst gw =>
        simp only [ribStep] at h
        injection h with h
        subst h
        unfold VState.addRoute
        rw [updateGwTypes_cache, updateGwTypes_unresHost]
        exact ⟨h1, h2⟩
      | del dst =>
        simp only [ribStep] at h
        split at h
        · obtain ⟨gw, _, rfl⟩ := delRoute_some h
          rw [updateGwTypes_cache, updateGwTypes_unresHost]
          exact ⟨h1, h2⟩
        · injection h with h; subst h; exact ⟨h1, h2⟩

theorem vipFlows_eq (m : Mgr) (v : Vlan) (x : Vip) : m.vipFlows v x =
    put (m.slot (m.vipVid v) (hostNet m.width x.ip)) m.vipBody ::
      (if m.proactive && !m.linkLocal x.ip then (m.routed v).map (fun rv => put (m.slot rv (x.net m.width)) m.vipBody) else []) := rfl

theorem addVlan_puts (m : Mgr) (vs : List Vlan) : ∀ x ∈ vs.flatMap m.addVlan, ∃ v ∈ vs, ∃ y ∈ v.vips, ∃ rv,
    x = put (m.slot rv (hostNet m.width y.ip)) m.vipBody ∨ x = put (m.slot rv (y.net m.width)) m.vipBody := by
  intro x hx
  obtain ⟨v, hv, hx⟩ := List.mem_flatMap.1 hx
  unfold Mgr.addVlan at hx
  obtain ⟨y, hy, hx⟩ := List.mem_flatMap.1 hx
  refine ⟨v, hv, y, hy, ?_⟩
  rw [vipFlows_eq] at hx
  rcases List.mem_cons.1 hx with rfl | hx
  · exact ⟨_, Or.inl rfl⟩
  · split at hx
    · obtain ⟨rv, _, rfl⟩ := List.mem_map.1 hx
      exact ⟨rv, Or.inr rfl⟩
    · cases hx

/-- Messages that only put one body. -/
theorem slotAfter_body {ms : List OfMsg} {b : Body} (h : ∀ x ∈ ms, ∃ s, x = put s b) (s : Slot) (y : Option Body) :
    (Puts ms s → slotAfter ms s y = some b) ∧ (¬ Puts ms s → slotAfter ms s y = y) := by
  have keep : ∀ (ms : List OfMsg), (∀ x ∈ ms, ∃ s, x = put s b) → slotAfter ms s (some b) = some b := by
    intro ms h
    induction ms with
    | nil => rfl
    | cons x ms ih =>
      obtain ⟨s1, rfl⟩ := h x (by simp)
      rw [slotAfter_cons, onFlow_put]
      split <;> exact ih (fun x hx => h x (List.mem_cons_of_mem _ hx))
  induction ms generalizing y with
  | nil => exact ⟨fun ⟨_, h⟩ => (by cases h), fun _ => rfl⟩
  | cons x ms ih =>
    have h' : ∀ x ∈ ms, ∃ s, x = put s b := fun x hx => h x (List.mem_cons_of_mem _ hx)
    obtain ⟨s1, rfl⟩ := h x (by simp)
    rw [slotAfter_cons, onFlow_put]
    constructor
    · rintro ⟨b', hb⟩
      by_cases hs : s1 = s
      · rw [if_pos hs]; exact keep ms h'
      · rw [if_neg hs]
        rcases List.mem_cons.1 hb with hb | hb
        · exact absurd (put_inj hb).1.symm hs
        · exact (ih h' y).1 ⟨b', hb⟩
    · intro hn
      rw [if_neg (by rintro rfl; exact hn ⟨b, by simp⟩)]
      exact (ih h' y).2 (fun ⟨b', hb⟩ => hn ⟨b', List.mem_cons_of_mem _ hb⟩)

theorem boot_flows (m : Mgr) (vs : List Vlan) (sw0 : Switch) (s : Slot) :
    (Puts (vs.flatMap m.addVlan) s → (boot m vs sw0).flows s = some m.vipBody) ∧
    (¬ Puts (vs.flatMap m.addVlan) s → (boot m vs sw0).flows s = sw0.flows s) := by
  have hp : ∀ x ∈ vs.flatMap m.addVlan, ∃ s, x = put s m.vipBody := by
    intro x hx
    obtain ⟨v, _, y, _, rv, h | h⟩ := addVlan_puts m vs x hx
    · exact ⟨_, h⟩
    · exact ⟨_, h⟩
  have hd : deletesFirst (vs.flatMap m.addVlan) = vs.flatMap m.addVlan := by
    unfold deletesFirst
    rw [List.filter_eq_nil_iff.2, List.filter_eq_self.2, List.nil_append]
    · intro x hx; obtain ⟨s, rfl⟩ := hp x hx; rfl
    · intro x hx; obtain ⟨s, rfl⟩ := hp x hx; simp [put_not_deletion]
  unfold boot
  rw [hd, execAll_flows]
  exact slotAfter_body hp s _

theorem slot_net {m : Mgr} {a b : Nat} {n n' : Net} (h : m.slot a n = m.slot b n') : n = n' ∧ vidPresent a = vidPresent b := by
  unfold Mgr.slot Mgr.routePriority Mgr.routeMatch at h
  injection h with _ h2 h3
  injection h3 with h4 h5
  injection h4 with _ h4 _
  injection h5 with _ h5
  injection h5 with h5 _
  injection h5 with _ h5 _
  cases n; cases n'
  simp only at h2 h5
  refine ⟨?_, h4⟩
  rw [h5]
  congr 1
  omega

section
variable {m : Mgr} {vs : List Vlan} {P : Net → Prop} {st0 : St} {sw0 : Switch} {st : St} {sw : Switch}

/-- FIB flows at the start are of low priority or those of VIPs. -/
theorem boot_shape (hv : VipsOk m vs) (hb : Blank m sw0) {s : Slot} {b : Body} (h : (boot m vs sw0).flows s = some b)
    (ht : s.table = m.fib.id) : b.hard = 0 ∧ b.idle = 0 ∧
      (s.priority < lpmPriority ∨ (b = m.vipBody ∧ ∃ rv n, s = m.slot rv n ∧ NetOk m.width n)) := by
  by_cases hp : Puts (vs.flatMap m.addVlan) s
  · rw [(boot_flows m vs sw0 s).1 hp] at h
    injection h with h
    subst h
    refine ⟨rfl, rfl, Or.inr ⟨rfl, ?_⟩⟩
    obtain ⟨b', hb'⟩ := hp
    obtain ⟨v, hvv, y, hy, rv, h | h⟩ := addVlan_puts m vs _ hb'
    · exact ⟨rv, _, (put_inj h).1, netOk_host (hv.vips v hvv y hy).1⟩
    · exact ⟨rv, _, (put_inj h).1, netOk_vip (hv.vips v hvv y hy).1 (hv.vips v hvv y hy).2⟩
  · rw [(boot_flows m vs sw0 s).2 hp] at h
    obtain ⟨h1, h2, h3⟩ := hb s b h ht
    exact ⟨h2, h3, Or.inl h1⟩

theorem inv_start (hc : ConfOk m vs) (hv : VipsOk m vs) (hb : Blank m sw0) (hst : Static m vs P st0) :
    Inv m vs P (boot m vs sw0).flows st0 (boot m vs sw0).flows := by
  have hrib : ∀ v ∈ vs, RibOk m.width (st0 v.vid) ∧ (st0 v.vid).cache = [] ∧ (st0 v.vid).unresHost = [] ∧
      ∀ gw dst, dst ∈ (st0 v.vid).dsts gw ↔ (st0 v.vid).routes.get? dst = some gw := by
    intro v hvv
    obtain ⟨ops, hs, hr⟩ := hst.rib v hvv
    obtain ⟨s, h1, h2, h3, h4⟩ := rib_run m.width ops
    rw [hr] at h1
    injection h1 with h1
    subst h1
    obtain ⟨h5, h6⟩ := rib_cache m.width ops _ hr
    refine ⟨h2, h5, h6, ?_⟩
    intro gw dst
    rw [h3]
    exact ⟨h4 hs dst gw, fun h => h2.behind dst gw (by rw [h3]; exact h)⟩
  have heth : ∀ v ∈ vs, ∀ g, (st0 v.vid).eth g = none := by
    intro v hvv g
    unfold VState.eth
    rw [(hrib v hvv).2.1]
    rfl
  have hnf : ∀ rv dst b, (boot m vs sw0).flows (m.slot rv dst) = some b → ¬ m.forwards b := by
    intro rv dst b h
    obtain ⟨_, _, h1 | ⟨rfl, _⟩⟩ := boot_shape hv hb h rfl
    · unfold Mgr.slot Mgr.routePriority at h1
      simp only at h1
      omega
    · intro hf
      unfold Mgr.forwards Mgr.vipBody instGoto at hf
      simp only [List.filterMap_cons, List.filterMap_nil, List.head?_cons, Option.some.injEq] at hf
      exact hc.tables hf.symm
  refine ⟨fun v hvv => (hrib v hvv).2.2.2, hst.uniq, ?_, ?_, ?_, ?_, ?_, ?_, ?_, fun _ _ _ => rfl⟩
  · intro v hvv gw n h
    rw [(hrib v hvv).2.1] at h
    cases h
  · intro v hvv dst gw mac rv _ h
    rw [heth v hvv] at h
    cases h
  · intro rv dst b _ h hf
    exact absurd hf (hnf rv dst b h)
  · intro v _ ip rv b _ _ _ h
    exact hnf rv _ b h
  · intro v hvv ip gw h
    exact (hst.gws v hvv _ gw h).2.2 ip rfl
  · intro v hvv gw h
    obtain ⟨h1, _, h3, h4⟩ := hrib v hvv
    rcases h with ⟨dst, h⟩ | h | h
    · exact (hst.gws v hvv dst gw h).1
    · rw [h1.host] at h
      unfold VState.isHostRoute at h
      split at h
      · rename_i d hd
        have : d ∈ (st0 v.vid).dsts gw := by rw [hd]; simp
        exact (hst.gws v hvv d gw ((h4 gw d).1 this)).1
      · cases h
    · rw [h3] at h; cases h
  · intro v hvv dst h
    cases hr : (st0 v.vid).routes.get? dst with
    | none => exact absurd hr h
    | some gw => exact (hst.gws v hvv dst gw hr).2.1

theorem inv_calm (hv : VipsOk m vs) (hb : Blank m sw0) {sw' : Switch}
    (hi : Inv m vs P (boot m vs sw0).flows st sw.flows) (h : Calm m sw sw') : Inv m vs P (boot m vs sw0).flows st sw'.flows := by
  have hsome : ∀ s b, s.table = m.fib.id → sw'.flows s = some b → sw.flows s = some b := by
    intro s b ht hs
    rcases h s ht with h | ⟨b', _, _, h⟩
    · rw [← h]; exact hs
    · rw [h] at hs; cases hs
  have hkeep : ∀ s b, s.table = m.fib.id → sw.flows s = some b → b.hard = 0 → b.idle = 0 → sw'.flows s = some b := by
    intro s b ht hs h1 h2
    rcases h s ht with h | ⟨b', hb', hh, _⟩
    · rw [h]; exact hs
    · rw [hs] at hb'
      injection hb' with hb'
      subst hb'
      rcases hh with hh | hh
      · exact absurd h1 hh
      · exact absurd h2 hh
  refine ⟨hi.idx, hi.uniq, hi.pair, ?_, ?_, ?_, hi.conn, hi.conn2, hi.allowed, ?_⟩
  · intro v hvv dst gw mac rv h1 h2 h3
    exact hkeep _ _ rfl (hi.full v hvv dst gw mac rv h1 h2 h3) rfl rfl
  · intro rv dst b h1 h2 h3
    exact hi.owned rv dst b h1 (hsome _ b rfl h2) h3
  · intro v hvv ip rv b h1 h2 h3 h4
    exact hi.bare v hvv ip rv b h1 h2 h3 (hsome _ b rfl h4)
  · intro s ht hP
    have ho := hi.outside s ht hP
    cases hs : (boot m vs sw0).flows s with
    | none =>
      rw [hs] at ho
      rcases h s ht with h | ⟨b', hb', _⟩
      · rw [h, ho]
      · rw [ho] at hb'; cases hb'
    | some b =>
      rw [hs] at ho
      obtain ⟨h1, h2, _⟩ := boot_shape hv hb hs ht
      exact hkeep s b ht ho h1 h2

theorem inv_reach (hc : ConfOk m vs) (hv : VipsOk m vs) (hb : Blank m sw0) (hst : Static m vs P st0)
    (hr : Reach m vs P st0 sw0 st sw) : Inv m vs P (boot m vs sw0).flows st sw.flows := by
  induction hr with
  | start => exact inv_start hc hv hb hst
  | @op st sw e o _ hsh ht ih =>
    have h1 := inv_step hc ih hsh ht
    have : (sw.execAll (deletesFirst (flowMods (m.step e st o).2))).flows = after (m.step e st o).2 sw.flows := by
      funext s
      rw [execAll_flows, stable_step hc e o]
      rfl
    rw [this]
    exact h1
  | calm _ hcalm ih => exact inv_calm hv hb ih hcalm

/-- Every FIB flow is of low priority or that of a proper prefix. -/
theorem shape (hv : VipsOk m vs) (hb : Blank m sw0) (hP : ∀ n, P n → NetOk m.width n)
    (hi : Inv m vs P (boot m vs sw0).flows st sw.flows) {s : Slot} {b : Body} (h : sw.flows s = some b) (ht : s.table = m.fib.id) :
    s.priority < lpmPriority ∨ ∃ rv n, s = m.slot rv n ∧ NetOk m.width n := by
  by_cases hs : ∃ rv dst, P dst ∧ s = m.slot rv dst
  · obtain ⟨rv, dst, h1, h2⟩ := hs
    exact Or.inr ⟨rv, dst, h2, hP dst h1⟩
  · rw [hi.outside s ht hs] at h
    obtain ⟨_, _, h1 | ⟨_, h1⟩⟩ := boot_shape hv hb h ht
    · exact Or.inl h1
    · exact Or.inr h1

theorem slot_vid {a b : Nat} {n : Net} (h : vidPresent a = vidPresent b) : m.slot a n = m.slot b n := by
  unfold Mgr.slot Mgr.routeMatch
  rw [h]

theorem hits_slot (hf : m.ipDst ≠ fVlanVid ∧ m.ipDst ≠ fVlanPcp) {p : Pkt} {vid ip rv : Nat} {n : Net} (hp : IpPkt m p vid ip) (hn : NetOk m.width n) :
    hitsAll (m.slot rv n).items p = true ↔ vidPresent rv = vidPresent vid ∧ n.contains m.width ip = true := by
  obtain ⟨pcp, rest, htag⟩ := hp.tag
  unfold Mgr.slot Mgr.routeMatch hitsAll
  simp only [List.all_cons, List.all_nil, Bool.and_true, Bool.and_eq_true]
  have h1 : (⟨fVlanVid, vidPresent rv, none⟩ : MatchItem).hits p = true ↔ vidPresent rv = vidPresent vid := by
    unfold MatchItem.hits Pkt.field
    simp only [if_true, htag, maskEq, beq_iff_eq]
    exact eq_comm
  have h2 : (⟨fEthType, m.ethType, none⟩ : MatchItem).hits p = true := by
    rw [hits_exact (by decide) (by decide)]
    exact hp.type
  have h3 : (⟨m.ipDst, n.addr, some (mask m.width n.len)⟩ : MatchItem).hits p = true ↔ n.contains m.width ip = true := by
    rw [hits_masked hf.1 hf.2]
    unfold Net.contains
    rw [hn.2.1]
    constructor
    · rintro ⟨x, hx, he⟩
      rw [hp.dst] at hx
      injection hx with hx
      subst hx
      simpa using he
    · intro h
      exact ⟨ip, hp.dst, by simpa using h⟩
  rw [h1, h3]
  simp [h2]

theorem contains_same {w : Nat} {n n' : Net} {ip : Nat} (h : n.contains w ip = true) (h' : n'.contains w ip = true)
    (hl : n'.len = n.len) : n' = n := by
  unfold Net.contains at h h'
  simp only [beq_iff_eq] at h h'
  rw [hl] at h'
  cases n; cases n'
  simp_all

/-! ## Properties -/

/-- The flows of the FIB are of low priority or those of proper prefixes. -/
def Shaped (m : Mgr) (F : Slot → Option Body) : Prop :=
  ∀ s b, F s = some b → s.table = m.fib.id → s.priority < lpmPriority ∨ ∃ rv n, s = m.slot rv n ∧ NetOk m.width n

theorem longest_of_shape (hf : m.ipDst ≠ fVlanVid ∧ m.ipDst ≠ fVlanPcp) (hsh : Shaped m sw.flows) {p : Pkt} {vid ip : Nat}
    (hp : IpPkt m p vid ip) (hex : ∃ n, Installed m sw vid n ∧ n.contains m.width ip = true) {s : Slot} {b : Body}
    (hit : Hit sw m.fib.id p s b) :
    ∃ n, s = m.slot vid n ∧ NetOk m.width n ∧ n.contains m.width ip = true ∧
      ∀ n', Installed m sw vid n' → n'.contains m.width ip = true → n'.len ≤ n.len ∧ (n'.len = n.len → n' = n) := by
  have hnet : ∀ n', Installed m sw vid n' → NetOk m.width n' := by
    rintro n' ⟨b', hb'⟩
    rcases hsh _ b' hb' rfl with h | ⟨rv, n, h, hn⟩
    · unfold Mgr.slot Mgr.routePriority at h
      simp only at h
      omega
    · rw [(slot_net h).1]; exact hn
  have hbest : ∀ n', Installed m sw vid n' → n'.contains m.width ip = true → lpmPriority + n'.len ≤ s.priority := by
    rintro n' hin hcn
    have hok := hnet n' hin
    obtain ⟨b', hb'⟩ := hin
    exact hit.best _ b' hb' rfl ((hits_slot hf hp hok).2 ⟨rfl, hcn⟩)
  obtain ⟨n0, hi0, hc0⟩ := hex
  rcases hsh _ b hit.present hit.table with h | ⟨rv, n, h, hn⟩
  · have := hbest n0 hi0 hc0
    omega
  · subst h
    have hhit := (hits_slot hf hp hn).1 hit.hits
    refine ⟨n, slot_vid hhit.1, hn, hhit.2, ?_⟩
    intro n' hin hcn
    have := hbest n' hin hcn
    unfold Mgr.slot Mgr.routePriority at this
    simp only at this
    exact ⟨by omega, contains_same hhit.2 hcn⟩

theorem serves_iff {v : Vlan} {rv : Nat} : Serves m v rv ↔ rv ∈ m.routed v := by
  unfold Serves Mgr.routed Mgr.isGlobal
  by_cases h : m.globalVid ≠ 0 ∧ m.routers.length = 1
  · rw [if_pos h, if_pos (by simp [h.1, h.2])]
    simp
  · rw [if_neg h, if_neg (by simpa using h)]
    simp [Router.has, and_assoc]

theorem run_nexthop (m : Mgr) (v : Vlan) (mac : Nat) (sw : Switch) (p : Pkt) (vid pcp : Nat) (rest : List (Nat × Nat))
    (ht : p.tags = (vid, pcp) :: rest) (hvid : v.vid < 4096) :
    (runInst sw (m.routeBody v mac).inst p).1 = [] ∧
    (runInst sw (m.routeBody v mac).inst p).2.hdr fEthDst = some mac ∧
    (runInst sw (m.routeBody v mac).inst p).2.hdr fEthSrc = some v.mac ∧
    (runInst sw (m.routeBody v mac).inst p).2.tags = (if m.routers.isEmpty then p.tags else (v.vid, pcp) :: rest) := by
  have hd := (Encoding.vid_present_roundtrip (v := v.vid) hvid).1
  unfold Mgr.routeBody Mgr.nexthopActs runInst
  cases m.decTtl <;> cases hr : m.routers.isEmpty <;>
    simp [instActs, instMeta, runActs, Action.apply, ht, fVlanVid, fVlanPcp, fEthSrc, fEthDst] <;>
    simpa [fVlanVid] using hd

/-- C20, first part. In every state a switch can be in: when a prefix is routed via a gateway whose MAC is known, a packet
whose longest installed prefix is this one has its MACs rewritten to the router's and the gateway's, is moved to the
gateway's VLAN if VLANs are routed, and goes on to L2 forwarding. -/
theorem gateway_routes_partial (hc : ConfOk m vs) (hv : VipsOk m vs) (hb : Blank m sw0) (hst : Static m vs P st0)
    (hP : ∀ n, P n → NetOk m.width n) (hr : Reach m vs P st0 sw0 st sw) {v : Vlan} (hvv : v ∈ vs) {dst : Net} {gw mac : Nat}
    (hroute : (st v.vid).routes.get? dst = some gw) (hmac : ∃ n, (st v.vid).cache.get? gw = some n ∧ n.eth = some mac)
    {p : Pkt} {rv ip : Nat} (hserves : Serves m v rv) (hp : IpPkt m p rv ip) (hin : dst.contains m.width ip = true)
    (hlong : ∀ n', Installed m sw rv n' → n'.contains m.width ip = true → n'.len ≤ dst.len) :
    (∃ s b, Hit sw m.fib.id p s b) ∧
    ∀ s b, Hit sw m.fib.id p s b → instGoto b.inst = some m.toL2 ∧ (runInst sw b.inst p).1 = [] ∧
      (runInst sw b.inst p).2.hdr fEthDst = some mac ∧ (runInst sw b.inst p).2.hdr fEthSrc = some v.mac ∧
      (m.routers = [] → (runInst sw b.inst p).2.tags = p.tags) ∧
      (m.routers ≠ [] → (runInst sw b.inst p).2.tags.head?.map (·.1) = some v.vid) := by
  have hi := inv_reach hc hv hb hst hr
  have hrv := serves_iff.1 hserves
  have heth : (st v.vid).eth gw = some mac := by
    obtain ⟨n, h1, h2⟩ := hmac
    unfold VState.eth
    rw [h1]
    exact h2
  have hflow := hi.full v hvv dst gw mac rv hroute heth hrv
  have hok : NetOk m.width dst := hP dst (hi.allowed v hvv dst (by rw [hroute]; simp))
  have hex : ∃ n, Installed m sw rv n ∧ n.contains m.width ip = true := ⟨dst, ⟨_, hflow⟩, hin⟩
  constructor
  · refine ⟨m.slot rv dst, _, hflow, rfl, (hits_slot hv.field hp hok).2 ⟨rfl, hin⟩, ?_⟩
    intro s' b' hs' ht' hh'
    rcases shape hv hb hP hi hs' ht' with h | ⟨rv', n', rfl, hn'⟩
    · unfold Mgr.slot Mgr.routePriority
      simp only
      omega
    · have h2 := (hits_slot hv.field hp hn').1 hh'
      have := hlong n' ⟨b', by rw [← slot_vid h2.1]; exact hs'⟩ h2.2
      unfold Mgr.slot Mgr.routePriority
      simp only
      omega
  · intro s b hit
    obtain ⟨n, rfl, hn, hcn, hbest⟩ := longest_of_shape hv.field (fun _ _ h ht => shape hv hb hP hi h ht) hp hex hit
    have h1 := hbest dst ⟨_, hflow⟩ hin
    have h2 := hlong n ⟨b, hit.present⟩ hcn
    have h3 := h1.2 (by omega)
    subst h3
    have := hit.present
    rw [hflow] at this
    injection this with this
    subst this
    obtain ⟨pcp, rest, htag⟩ := hp.tag
    obtain ⟨h4, h5, h6, h7⟩ := run_nexthop m v mac sw p rv pcp rest htag (hc.vid v hvv)
    refine ⟨rfl, h4, h5, h6, ?_, ?_⟩
    · intro he; rw [h7, he]; rfl
    · intro he
      rw [h7]
      cases hm : m.routers with
      | nil => exact absurd hm he
      | cons a l => rfl

/-- C20, second part. In every state a switch can be in, a flow of the FIB that forwards packets to an address is that of a
prefix that is routed, in a VLAN whose routes cover this VLAN's traffic. So the routes of withdrawn prefixes and expired
hosts are gone. -/
theorem no_stale_routes_partial (hc : ConfOk m vs) (hv : VipsOk m vs) (hb : Blank m sw0) (hst : Static m vs P st0)
    (hP : ∀ n, P n → NetOk m.width n) (hr : Reach m vs P st0 sw0 st sw) {p : Pkt} {vid ip : Nat} (hp : IpPkt m p vid ip)
    {s : Slot} {b : Body} (hit : Hit sw m.fib.id p s b) (hprio : lpmPriority ≤ s.priority) (hf : instGoto b.inst = some m.toL2) :
    ∃ v ∈ vs, ∃ n gw, Serves m v vid ∧ (st v.vid).routes.get? n = some gw ∧ n.contains m.width ip = true := by
  have hi := inv_reach hc hv hb hst hr
  rcases shape hv hb hP hi hit.present hit.table with h | ⟨rv, n, h, hn⟩
  · omega
  · subst h
    have hhit := (hits_slot hv.field hp hn).1 hit.hits
    have hpres := hit.present
    rw [slot_vid hhit.1] at hpres
    obtain ⟨v, hvv, h1, h2, -⟩ := hi.owned vid n b hp.vid hpres hf
    cases hg : (st v.vid).routes.get? n with
    | none => exact absurd hg h2
    | some gw => exact ⟨v, hvv, n, gw, serves_iff.2 h1, hg, hhit.2⟩

/-- C20, third part. An advertisement of the MAC a gateway already has sends no flow mods. -/
theorem relearn_quiet (m : Mgr) (st : St) (now : Int) (v : Vlan) (port mac gw : Nat) (n : NextHop)
    (hn : (st v.vid).cache.get? gw = some n) (he : n.eth = some mac) :
    flowMods (m.advert st now v port mac gw).2 = [] ∧
    ∀ e, (st v.vid).routes.get? (hostNet m.width gw) = some gw → m.gwVlan v gw = some v →
      flowMods (m.hostPkt e st now v port mac gw).2 = [] := by
  have heth : (st v.vid).eth gw = some mac := by unfold VState.eth; rw [hn]; exact he
  constructor
  · unfold Mgr.advert
    split
    · unfold Mgr.updateNexthop Mgr.nexthopFlows
      simp [heth, flowMods]
    · rfl
  · intro e hr hg
    have ha : m.addRoute st v gw (hostNet m.width gw) = (st, []) := by
      unfold Mgr.addRoute
      rw [hg]
      simp [Vlan.isVipNet, hr]
    unfold Mgr.hostPkt
    split
    · unfold Mgr.learnHost Mgr.addHost
      rw [ha]
      unfold Mgr.updateNexthop Mgr.nexthopFlows
      simp [heth, flowMods]
    · rfl

/-- The prefixes that may be routed without taking an address of the router. -/
def NotOurs (m : Mgr) (vs : List Vlan) (n : Net) : Prop :=
  NetOk m.width n ∧ ∀ v ∈ vs, ∀ x ∈ v.vips, n ≠ hostNet m.width x.ip

/-- C58. If no host uses an address of the router and no host route to one is announced, then in every state a switch can be
in a packet to an address of the router in the VLAN of the address (or the global VLAN) goes unchanged to the VIP table. -/
theorem router_address_partial (hc : ConfOk m vs) (hv : VipsOk m vs) (hb : Blank m sw0) (hst : Static m vs (NotOurs m vs) st0)
    (hr : Reach m vs (NotOurs m vs) st0 sw0 st sw) {v : Vlan} (hvv : v ∈ vs) {x : Vip} (hx : x ∈ v.vips) {p : Pkt} {vid : Nat}
    (hvid : vid = if m.globalVid ≠ 0 ∧ m.routers.length = 1 then m.globalVid else v.vid) (hp : IpPkt m p vid x.ip) :
    (∃ s b, Hit sw m.fib.id p s b) ∧
    ∀ s b, Hit sw m.fib.id p s b → instGoto b.inst = some m.vip.id ∧ (runInst sw b.inst p) = ([], p) := by
  have hi := inv_reach hc hv hb hst hr
  have hvid' : vid = m.vipVid v := by
    rw [hvid]
    unfold Mgr.vipVid Mgr.isGlobal
    by_cases h : m.globalVid ≠ 0 ∧ m.routers.length = 1
    · rw [if_pos h, if_pos (by simp [h.1, h.2])]
    · rw [if_neg h, if_neg]
      simp only [Bool.and_eq_true, bne_iff_ne, beq_iff_eq]
      exact h
  have hout : ¬ ∃ rv dst, NotOurs m vs dst ∧ m.slot vid (hostNet m.width x.ip) = m.slot rv dst := by
    rintro ⟨rv, dst, h1, h2⟩
    exact h1.2 v hvv x hx (slot_net h2).1.symm
  have hflow : sw.flows (m.slot vid (hostNet m.width x.ip)) = some m.vipBody := by
    rw [hi.outside _ rfl hout]
    refine (boot_flows m vs sw0 _).1 ⟨m.vipBody, ?_⟩
    refine List.mem_flatMap.2 ⟨v, hvv, ?_⟩
    unfold Mgr.addVlan
    refine List.mem_flatMap.2 ⟨x, hx, ?_⟩
    rw [vipFlows_eq, hvid']
    exact List.mem_cons_self
  have hok : NetOk m.width (hostNet m.width x.ip) := netOk_host (hv.vips v hvv x hx).1
  have hself : (hostNet m.width x.ip).contains m.width x.ip = true := by
    exact beq_iff_eq.2 hok.2.1
  constructor
  · refine ⟨m.slot vid (hostNet m.width x.ip), _, hflow, rfl, (hits_slot hv.field hp hok).2 ⟨rfl, hself⟩, ?_⟩
    intro s' b' hs' ht' _
    rcases shape hv hb (fun n h => h.1) hi hs' ht' with h | ⟨rv', n', rfl, hn'⟩
    · unfold Mgr.slot Mgr.routePriority
      simp only
      omega
    · have := hn'.1
      unfold Mgr.slot Mgr.routePriority hostNet
      simp only
      omega
  · intro s b hit
    obtain ⟨n, rfl, hn, hcn, hbest⟩ := longest_of_shape hv.field (fun _ _ h ht => shape hv hb (fun n h => h.1) hi h ht) hp ⟨_, ⟨_, hflow⟩, hself⟩ hit
    have h1 := hbest _ ⟨_, hflow⟩ hself
    have h2 := hn.1
    have h3 := h1.2 (by have := h1.1; unfold hostNet at this ⊢; simp only at this ⊢; omega)
    subst h3
    have := hit.present
    rw [hflow] at this
    injection this with this
    subst this
    exact ⟨rfl, rfl⟩

end

end Faucet.Route
