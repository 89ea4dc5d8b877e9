import Verif.Route.Lpm

/-!
# C46: BGP announcements and withdrawals
-/

namespace Faucet.Route
open Faucet.OF Faucet

/-! ## The code -/

/-- A path change of a BGP peer. A next hop is usually missing from withdrawals. -/
structure PathChange where
  prefx : Net
  nextHop : Option Nat
  withdraw : Bool
deriving Repr

/-- Lines 109-123 of `faucet/faucet_bgp.py`: the change is skipped because of its next hop. -/
def Mgr.bgpSkips (m : Mgr) (v : Vlan) : Option Nat → Bool
  | none => false
  | some nh => v.isVip m.width nh || (m.gwVlan v nh).isNone

/-- `FaucetBgp._bgp_route_handler`, `faucet/faucet_bgp.py` 95-139, for a speaker of a VLAN that exists. `rib` is
`_dp_bgp_rib[bgp_speaker_key]`. `none` is the exception of line 136 when an announcement has no next hop
(`UnboundLocalError`, after which `kill_on_exception` ends the process). -/
def Mgr.bgpChange (m : Mgr) (v : Vlan) (st : St) (rib : Dict Net Nat) (c : PathChange) : Option (St × Dict Net Nat × List RMsg) :=
  if m.bgpSkips v c.nextHop then some (st, rib, [])
  else if c.withdraw then some ((m.delRoute st v c.prefx).1, rib.del c.prefx, (m.delRoute st v c.prefx).2)
  else match c.nextHop with
    | none => none
    | some nh => some ((m.addRoute st v nh c.prefx).1, rib.set c.prefx nh, (m.addRoute st v nh c.prefx).2)

/-- The loop of `_add_bgp_speaker`, `faucet/faucet_bgp.py` 199-212: the routes of the RIB are added again. -/
def Mgr.readd (m : Mgr) (v : Vlan) (st : St) (rib : Dict Net Nat) : St :=
  rib.foldl (fun st e => (m.addRoute st v e.2 e.1).1) st

/-- The route tables of the VLANs of a new configuration: they know the routes that are configured (`faucet/vlan.py`
256-286; `static` as in `ribRun`), and nothing is carried over (`faucet/dp.py` 334-342). -/
def Mgr.configured (m : Mgr) (static : Nat → List RibOp) : St := fun k => (ribRun m.width (static k)).getD {}

/-- `_apply_configs`, `faucet/valves_manager.py` 296-326, and `FaucetBgp.reset`, `faucet/faucet_bgp.py` 214-248, for this
speaker: `speaker` says whether it is still configured. If not, it is kept all the same, and the RIB too, but no routes
are added again. The networks of the VLAN and its router are taken to stay the same. -/
def Mgr.bgpReload (m : Mgr) (v : Vlan) (rib : Dict Net Nat) (speaker : Bool) (static : Nat → List RibOp) : St :=
  if speaker then m.readd v (m.configured static) rib else m.configured static

/-- What happens to a VLAN with a BGP speaker. -/
inductive BgpEv where
  | change (c : PathChange)
  /-- a configuration is read -/
  | reload (speaker : Bool) (static : Nat → List RibOp)
  /-- anything else the route manager does -/
  | op (e : Env) (o : Op)

/-- One event. -/
def Mgr.bgpStep (m : Mgr) (v : Vlan) (x : St × Dict Net Nat) : BgpEv → Option (St × Dict Net Nat)
  | .change c => (m.bgpChange v x.1 x.2 c).map (fun r => (r.1, r.2.1))
  | .reload b static => some (m.bgpReload v x.2 b static, x.2)
  | .op e o => some ((m.step e x.1 o).1, x.2)

/-- A history, newest event first; `none` is an exception. -/
def Mgr.bgpRun (m : Mgr) (v : Vlan) (st : St) : List BgpEv → Option (St × Dict Net Nat)
  | [] => some (st, [])
  | ev :: evs => (m.bgpRun v st evs).bind (fun x => m.bgpStep v x ev)

/-! ## Specification -/

/-- A next hop is valid: an address of one of the networks of the VLAN's router, but not the router's own. -/
def ValidHop (m : Mgr) (v : Vlan) (nh : Nat) : Prop := v.isVip m.width nh = false ∧ m.gwVlan v nh ≠ none

open Classical in
/-- The next hop the peer last gave for a prefix, newest event first. Announcements with an invalid next hop do not count,
nor do withdrawals that name one. -/
noncomputable def lastWord (m : Mgr) (v : Vlan) (dst : Net) : List BgpEv → Option Nat
  | [] => none
  | .change ⟨d, some nh, false⟩ :: evs => if d = dst ∧ ValidHop m v nh then some nh else lastWord m v dst evs
  | .change ⟨d, some nh, true⟩ :: evs => if d = dst ∧ ValidHop m v nh then none else lastWord m v dst evs
  | .change ⟨d, none, true⟩ :: evs => if d = dst then none else lastWord m v dst evs
  | .change ⟨_, none, false⟩ :: evs => lastWord m v dst evs
  | .reload _ _ :: evs => lastWord m v dst evs
  | .op _ _ :: evs => lastWord m v dst evs

/-- Events within the claim: announcements have a next hop; valid next hops are in the speaker's own VLAN; routes change only
by BGP, by what hosts do and by new configurations, in which the speaker stays. -/
def BgpOk (m : Mgr) (v : Vlan) : BgpEv → Prop
  | .change c => (c.withdraw = false → c.nextHop ≠ none) ∧ ∀ nh, c.nextHop = some nh → m.gwVlan v nh = none ∨ m.gwVlan v nh = some v
  | .reload speaker _ => speaker = true
  | .op _ (.announce _ _ _) => False
  | .op _ (.withdraw _ _) => False
  | .op _ _ => True

/-! ## Proof -/

section
variable {m : Mgr} {st : St}

/-- Every routed prefix is recorded behind its gateway. -/
def Behind (st : St) : Prop := ∀ k dst gw, (st k).routes.get? dst = some gw → dst ∈ (st k).dsts gw

/-- Routes of networks stay, whatever happens to hosts. -/
def Frame (m : Mgr) (st st' : St) : Prop :=
  (∀ k dst, dst.len ≠ m.width → (st' k).routes.get? dst = (st k).routes.get? dst) ∧ (Behind st → Behind st')

theorem Frame.refl : Frame m st st := ⟨fun _ _ _ => rfl, id⟩

theorem Frame.trans {a b c : St} (h : Frame m a b) (h' : Frame m b c) : Frame m a c :=
  ⟨fun k dst hl => (h'.1 k dst hl).trans (h.1 k dst hl), fun hb => h'.2 (h.2 hb)⟩

theorem frame_same {vid : Nat} {s : VState} (h1 : s.routes = (st vid).routes) (h2 : ∀ g, s.dsts g = (st vid).dsts g) :
    Frame m st (st.upd vid s) := by
  constructor
  · intro k dst _
    by_cases hk : k = vid
    · subst hk; rw [upd_self, h1]
    · rw [upd_ne _ _ hk]
  · intro hb k dst gw h
    by_cases hk : k = vid
    · subst hk; rw [upd_self] at h ⊢; rw [h1] at h; rw [h2]; exact hb _ dst gw h
    · rw [upd_ne _ _ hk] at h ⊢; exact hb k dst gw h

theorem behind_put (hb : Behind st) (v : Vlan) (gw : Nat) (dst : Net) : Behind (m.putRoute st v gw dst).1 := by
  intro k d g h
  unfold Mgr.putRoute at h ⊢
  simp only at h ⊢
  by_cases hk : k = v.vid
  · subst hk
    rw [upd_self] at h ⊢
    rw [routes_addRoute, Dict.get?_set] at h
    rw [dsts_addRoute]
    by_cases hd : dst = d
    · rw [if_pos hd] at h
      injection h with h
      subst h
      rw [if_pos rfl]
      exact mem_setAdd.2 (Or.inl hd.symm)
    · rw [if_neg hd] at h
      have := hb _ d g h
      split
      · rename_i hg; subst hg; exact mem_setAdd.2 (Or.inr this)
      · exact this
  · rw [upd_ne _ _ hk] at h ⊢; exact hb k d g h

theorem behind_add (hb : Behind st) (v : Vlan) (gw : Nat) (dst : Net) : Behind (m.addRoute st v gw dst).1 := by
  unfold Mgr.addRoute
  split
  · exact hb
  · split
    · exact hb
    · split
      · exact hb
      · exact behind_put hb _ gw dst

theorem frame_addRoute (v : Vlan) (gw ip : Nat) : Frame m st (m.addRoute st v gw (hostNet m.width ip)).1 := by
  refine ⟨?_, fun hb => behind_add hb v gw _⟩
  intro k dst hl
  unfold Mgr.addRoute
  split
  · rfl
  · rename_i u _
    split
    · rfl
    · split
      · rfl
      · unfold Mgr.putRoute
        simp only
        by_cases hk : k = u.vid
        · subst hk
          rw [upd_self, routes_addRoute, Dict.get?_set_ne]
          rintro rfl
          exact hl rfl
        · rw [upd_ne _ _ hk]

theorem behind_del (hb : Behind st) (v : Vlan) (dst : Net) : Behind (m.delRoute st v dst).1 := by
  unfold Mgr.delRoute
  split
  · exact hb
  · split
    · exact hb
    · rename_i s hs
      obtain ⟨gw, hgw, rfl⟩ := delRoute_some hs
      intro k d g h
      simp only at h ⊢
      by_cases hk : k = v.vid
      · subst hk
        rw [upd_self] at h ⊢
        rw [updateGwTypes_routes] at h
        rw [updateGwTypes_dsts, dsts_unsetRoute]
        have hr : ((st v.vid).unsetRoute dst gw).routes = (st v.vid).routes.del dst := rfl
        rw [hr, Dict.get?_del] at h
        split at h
        · cases h
        · rename_i hd
          have := hb _ d g h
          split
          · rename_i hg; subst hg; exact mem_setDel.2 ⟨this, fun he => hd he.symm⟩
          · exact this
      · rw [upd_ne _ _ hk] at h ⊢; exact hb k d g h

theorem get_delRoute (hb : Behind st) (v : Vlan) (dst : Net) (k : Nat) (d : Net) :
    ((m.delRoute st v dst).1 k).routes.get? d = if k = v.vid ∧ d = dst then none else (st k).routes.get? d := by
  unfold Mgr.delRoute
  rw [if_neg (by simp [Vlan.isVipNet])]
  cases hs : (st v.vid).delRoute m.width dst with
  | none =>
    simp only
    split
    · rename_i h
      obtain ⟨rfl, rfl⟩ := h
      cases hr : (st v.vid).routes.get? d with
      | none => rfl
      | some gw =>
        exfalso
        have := hb v.vid d gw hr
        unfold VState.delRoute at hs
        rw [hr] at hs
        simp only at hs
        rw [if_pos (by simpa using this)] at hs
        cases hs
    · rfl
  | some s =>
    obtain ⟨gw, _, rfl⟩ := delRoute_some hs
    simp only
    by_cases hk : k = v.vid
    · subst hk
      rw [upd_self, updateGwTypes_routes]
      have hr : ((st v.vid).unsetRoute dst gw).routes = (st v.vid).routes.del dst := rfl
      rw [hr, Dict.get?_del]
      by_cases hd : dst = d
      · rw [if_pos hd, if_pos ⟨rfl, hd.symm⟩]
      · rw [if_neg hd, if_neg (fun h => hd h.2.symm)]
    · rw [upd_ne _ _ hk, if_neg (fun h => hk h.1)]

theorem frame_delHost (v : Vlan) (ip : Nat) : Frame m st (m.delRoute st v (hostNet m.width ip)).1 := by
  refine ⟨?_, fun hb => behind_del hb v _⟩
  intro k dst hl
  unfold Mgr.delRoute
  split
  · rfl
  · split
    · rfl
    · rename_i s hs
      obtain ⟨gw, _, rfl⟩ := delRoute_some hs
      simp only
      by_cases hk : k = v.vid
      · subst hk
        rw [upd_self, updateGwTypes_routes]
        have hr : ((st v.vid).unsetRoute (hostNet m.width ip) gw).routes = (st v.vid).routes.del (hostNet m.width ip) := rfl
        rw [hr, Dict.get?_del, if_neg]
        rintro rfl
        exact hl rfl
      · rw [upd_ne _ _ hk]

theorem frame_update (now : Int) (v : Vlan) (port mac gw : Nat) : Frame m st (m.updateNexthop st now v port mac gw).1 :=
  frame_same rfl (fun _ => rfl)

theorem frame_learn (e : Env) (now : Int) (v : Vlan) (port mac ip : Nat) : Frame m st (m.learnHost e st now v port mac ip).1 :=
  (frame_addRoute v ip ip).trans (frame_update now v port mac ip)

theorem frame_hostPkt (e : Env) (now : Int) (v : Vlan) (port mac ip : Nat) : Frame m st (m.hostPkt e st now v port mac ip).1 := by
  unfold Mgr.hostPkt
  split
  · exact frame_learn e now v port mac ip
  · exact Frame.refl

theorem frame_resolveGw (e : Env) (now : Int) (v : Vlan) (gw : Nat) (n : NextHop) : Frame m st (m.resolveGw e st now v gw n).1 := by
  unfold Mgr.resolveGw
  split
  · exact frame_same rfl (fun _ => rfl)
  · exact Frame.refl

theorem frame_startHop (e : Env) (now : Int) (v : Vlan) (dst : Nat) (b : Bool) : Frame m st (m.startHop e st now v dst b).1 := by
  have h : Frame m st (st.upd v.vid ((st v.vid).setHop dst (NextHop.new none none now))) := frame_same rfl (fun _ => rfl)
  unfold Mgr.startHop
  split
  · exact h
  · exact h.trans (frame_resolveGw e now v dst _)

theorem frame_expire (v : Vlan) (gw : Nat) (n : NextHop) : Frame m st (m.expireGw st v gw n).1 :=
  (frame_same (st := st) (vid := v.vid) (s := (st v.vid).delHop gw) rfl (fun _ => rfl)).trans (frame_delHost v gw)

theorem frame_handler (hosts : Bool) (e : Env) (now : Int) (v : Vlan) (gw : Nat) (n : NextHop) :
    Frame m st (m.handler hosts e st now v gw n).1 := by
  unfold Mgr.handler
  cases hosts
  · exact frame_resolveGw e now v gw n
  · simp only [if_true, Mgr.resolveExpire]
    split
    · exact frame_expire v gw n
    · exact frame_resolveGw e now v gw n

theorem frame_loop (hosts : Bool) (e : Env) (now : Int) (v : Vlan) (gws : List Nat) (r : Int) :
    Frame m st (m.resolveLoop e hosts now v gws r st).1 := by
  induction gws generalizing r st with
  | nil => exact Frame.refl
  | cons gw gws ih =>
    rcases loop_cons m e hosts now v gw gws r st with ⟨_, hq⟩ | ⟨_, _, hq⟩ | ⟨n, r', st', ms, _, _, _, hh, _, hq⟩
    · rw [hq]; exact Frame.refl
    · rw [hq]; exact ih r
    · rw [hq]
      refine Frame.trans ?_ (ih r')
      have : st' = (m.handler hosts e st now v gw n).1 := by rw [hh]
      rw [this]
      exact frame_handler hosts e now v gw n

theorem routes_touches (now : Int) (l : List Nat) (s : VState) : (l.foldl (VState.touch now) s).routes = s.routes := by
  induction l generalizing s with
  | nil => rfl
  | cons a l ih => rw [List.foldl_cons, ih]; unfold VState.touch; split <;> rfl

theorem routes_setUnres (s : VState) (hosts : Bool) (l : List Nat) : (s.setUnres hosts l).routes = s.routes := by
  unfold VState.setUnres
  split <;> rfl

theorem routes_pick (e : Env) (s : VState) (hosts all : Bool) (now : Int) : (m.pick e s hosts all now).1.routes = s.routes := by
  unfold Mgr.pick
  split
  · simp only [routes_setUnres, Mgr.unresolved, routes_touches]
  · split
    · rfl
    · rw [routes_setUnres]

theorem frame_expireAll (v : Vlan) (l : List (Nat × NextHop)) : Frame m st (m.expireAll v l st).1 := by
  induction l generalizing st with
  | nil => exact Frame.refl
  | cons y l ih => exact (frame_expire v y.1 y.2).trans ih

theorem frame_portDown (port : Nat) (us : List Vlan) : Frame m st (m.portDown port us st).1 := by
  induction us generalizing st with
  | nil => exact Frame.refl
  | cons v us ih => exact (frame_expireAll v _).trans ih

theorem frame_step {v : Vlan} {e : Env} {o : Op} (h : BgpOk m v (.op e o)) : Frame m st (m.step e st o).1 := by
  cases o with
  | announce => cases h
  | withdraw => cases h
  | hostPkt now v port mac ip => exact frame_hostPkt e now v port mac ip
  | askVip now v port mac src target =>
    show Frame m st (m.askVip e st now v port mac src target).1
    unfold Mgr.askVip
    split
    · split
      · exact frame_learn e now v port mac src
      · exact Frame.refl
    · exact Frame.refl
  | advert now v port mac target =>
    show Frame m st (m.advert st now v port mac target).1
    unfold Mgr.advert
    split
    · exact frame_update now v port mac target
    · exact Frame.refl
  | toHost now v port mac src dst =>
    show Frame m st (m.toHost e st now v port mac src dst).1
    unfold Mgr.toHost
    split
    · split
      · rename_i u x _
        split
        · refine (frame_hostPkt e now v port mac src).trans ((frame_addRoute u dst dst).trans ?_)
          exact frame_startHop e now u dst _
        · exact Frame.refl
      · exact Frame.refl
    · exact Frame.refl
  | resolve hosts all now v =>
    exact (frame_same (vid := v.vid) (routes_pick e _ hosts all now) (fun g => dsts_pick e _ hosts all now g)).trans
      (frame_loop hosts e now v _ _)
  | portDown port us => exact frame_portDown port us

theorem skips_iff (v : Vlan) (nh : Nat) : m.bgpSkips v (some nh) = true ↔ ¬ ValidHop m v nh := by
  unfold Mgr.bgpSkips ValidHop
  cases h1 : v.isVip m.width nh <;> cases h2 : m.gwVlan v nh <;> simp [h1, h2]

theorem get_addRoute {v : Vlan} {nh : Nat} (h : m.gwVlan v nh = some v) (dst d : Net) :
    ((m.addRoute st v nh dst).1 v.vid).routes.get? d = if dst = d then some nh else (st v.vid).routes.get? d := by
  unfold Mgr.addRoute
  rw [h]
  simp only [Vlan.isVipNet, Bool.false_eq_true, if_false]
  split
  · rename_i hr
    split
    · rename_i hd; subst hd; exact hr
    · rfl
  · unfold Mgr.putRoute
    simp only
    rw [upd_self, routes_addRoute, Dict.get?_set]

theorem behind_readd (v : Vlan) (rib : Dict Net Nat) (hb : Behind st) : Behind (m.readd v st rib) := by
  unfold Mgr.readd
  induction rib generalizing st with
  | nil => exact hb
  | cons e rib ih => exact ih (behind_add hb v e.2 e.1)

/-- Adding the routes of the RIB again: the RIB has precedence over what was there. -/
theorem get_readd {v : Vlan} {rib : Dict Net Nat} (hn : rib.keys.Nodup) (hg : ∀ e ∈ rib, m.gwVlan v e.2 = some v) (d : Net) :
    ((m.readd v st rib) v.vid).routes.get? d = (rib.get? d).or ((st v.vid).routes.get? d) := by
  unfold Mgr.readd
  induction rib generalizing st with
  | nil => rfl
  | cons e rib ih =>
    obtain ⟨p, nh⟩ := e
    have hn' : (p :: Dict.keys rib).Nodup := hn
    rw [List.nodup_cons] at hn'
    rw [List.foldl_cons, ih hn'.2 (fun e he => hg e (List.mem_cons_of_mem _ he)), get_addRoute (hg _ List.mem_cons_self),
      Dict.get?_cons]
    by_cases hp : p = d
    · subst hp
      rw [if_pos rfl, if_pos rfl, Dict.get?_eq_none_iff.2 hn'.1]
      rfl
    · rw [if_neg hp, if_neg hp]

theorem configured_get (static : Nat → List RibOp) (k : Nat) (dst : Net) :
    ((m.configured static) k).routes.get? dst = gwAfter dst (static k) := by
  obtain ⟨s, h1, _, h3, _⟩ := rib_run m.width (static k)
  unfold Mgr.configured
  rw [h1]
  exact h3 dst

theorem configured_behind (static : Nat → List RibOp) : Behind (m.configured static) := by
  intro k dst gw h
  obtain ⟨s, h1, h2, _, _⟩ := rib_run m.width (static k)
  unfold Mgr.configured at h ⊢
  rw [h1] at h ⊢
  exact h2.behind dst gw h

/-- What the RIB holds. -/
def RibGood (m : Mgr) (v : Vlan) (rib : Dict Net Nat) : Prop :=
  rib.keys.Nodup ∧ ∀ d nh, rib.get? d = some nh → m.gwVlan v nh = some v

theorem RibGood.mem {v : Vlan} {rib : Dict Net Nat} (h : RibGood m v rib) : ∀ e ∈ rib, m.gwVlan v e.2 = some v :=
  fun e he => h.2 e.1 e.2 (Dict.get?_of_mem h.1 he)

/-- C46. After every history of BGP path changes, mixed with anything hosts do and with new configurations, of a VLAN whose
configuration gave it the routes `static`: no exception was raised, and every network prefix that no configuration had a
static route for is in the RIB of the speaker, and routed by the VLAN, exactly via the next hop the peer last announced, if
it has not withdrawn it since. -/
theorem bgp_follows_partial (m : Mgr) (v : Vlan) (st0 : St) (static : Nat → List RibOp)
    (hst : ∀ k, ribRun m.width (static k) = some (st0 k)) (evs : List BgpEv) (hok : ∀ ev ∈ evs, BgpOk m v ev) :
    ∃ st rib, m.bgpRun v st0 evs = some (st, rib) ∧
      ∀ dst, dst.len ≠ m.width → gwAfter dst (static v.vid) = none →
        (∀ b static', .reload b static' ∈ evs → gwAfter dst (static' v.vid) = none) →
        rib.get? dst = lastWord m v dst evs ∧ (st v.vid).routes.get? dst = lastWord m v dst evs := by
  have hb0 : Behind st0 := by
    intro k dst gw h
    obtain ⟨s, h1, h2, _, _⟩ := rib_run m.width (static k)
    rw [hst k] at h1
    injection h1 with h1
    subst h1
    exact h2.behind dst gw h
  have h0 : ∀ dst, gwAfter dst (static v.vid) = none → (st0 v.vid).routes.get? dst = none := by
    intro dst h
    obtain ⟨s, h1, _, h3, _⟩ := rib_run m.width (static v.vid)
    rw [hst v.vid] at h1
    injection h1 with h1
    subst h1
    rw [h3]; exact h
  suffices H : ∃ st rib, m.bgpRun v st0 evs = some (st, rib) ∧ (Behind st ∧ RibGood m v rib) ∧
      ∀ dst, dst.len ≠ m.width → gwAfter dst (static v.vid) = none →
        (∀ b static', .reload b static' ∈ evs → gwAfter dst (static' v.vid) = none) →
        rib.get? dst = lastWord m v dst evs ∧ (st v.vid).routes.get? dst = lastWord m v dst evs by
    obtain ⟨st, rib, h1, _, h3⟩ := H
    exact ⟨st, rib, h1, h3⟩
  induction evs with
  | nil => exact ⟨st0, [], rfl, ⟨hb0, List.nodup_nil, fun _ _ h => by cases h⟩, fun dst _ hd _ => ⟨rfl, h0 dst hd⟩⟩
  | cons ev evs ih =>
    obtain ⟨st, rib, hr, ⟨hb, hgood⟩, hw'⟩ := ih (fun e he => hok e (List.mem_cons_of_mem _ he))
    have hw : ∀ dst, dst.len ≠ m.width → gwAfter dst (static v.vid) = none →
        (∀ b static', .reload b static' ∈ ev :: evs → gwAfter dst (static' v.vid) = none) →
        rib.get? dst = lastWord m v dst evs ∧ (st v.vid).routes.get? dst = lastWord m v dst evs :=
      fun dst hl hd hs => hw' dst hl hd (fun b s h => hs b s (List.mem_cons_of_mem _ h))
    have hev := hok ev (by simp)
    simp only [Mgr.bgpRun, hr, Option.bind_some]
    cases ev with
    | op e o =>
      refine ⟨_, _, rfl, ⟨(frame_step hev).2 hb, hgood⟩, ?_⟩
      intro dst hl hd hs
      rw [(frame_step hev).1 _ dst hl]
      exact hw dst hl hd hs
    | reload b static' =>
      have hbt : b = true := hev
      subst hbt
      refine ⟨_, _, rfl, ⟨behind_readd v rib (configured_behind static'), hgood⟩, ?_⟩
      intro dst hl hd hs
      have h1 := (hw dst hl hd hs).1
      have h2 := hs true static' List.mem_cons_self
      refine ⟨h1, ?_⟩
      show ((m.readd v (m.configured static') rib) v.vid).routes.get? dst = lastWord m v dst evs
      rw [get_readd hgood.1 hgood.mem, configured_get, h2, h1, Option.or_none]
    | change c =>
      obtain ⟨d, onh, wd⟩ := c
      simp only [Mgr.bgpStep, Mgr.bgpChange]
      by_cases hs : m.bgpSkips v onh = true
      · rw [if_pos hs]
        cases onh with
        | none => cases hs
        | some nh =>
          have hnv := (skips_iff v nh).1 hs
          refine ⟨_, _, rfl, ⟨hb, hgood⟩, ?_⟩
          intro dst hl hd hs'
          cases wd <;> simp only [lastWord, hnv, and_false, if_false] <;> exact hw dst hl hd hs'
      · rw [if_neg hs]
        cases wd with
        | true =>
          refine ⟨_, _, rfl, ⟨behind_del hb v d, Dict.nodup_keys_del hgood.1 d, ?_⟩, ?_⟩
          · intro d' nh' h
            rw [Dict.get?_del] at h
            split at h
            · cases h
            · exact hgood.2 d' nh' h
          intro dst hl hd hs'
          have hword : lastWord m v dst (.change ⟨d, onh, true⟩ :: evs) = if d = dst then none else lastWord m v dst evs := by
            cases onh with
            | none => rfl
            | some nh =>
              have hv : ValidHop m v nh := by
                by_contra hc
                exact hs ((skips_iff v nh).2 hc)
              simp only [lastWord, hv, and_true]
          rw [hword]
          simp only
          rw [Dict.get?_del, get_delRoute hb]
          obtain ⟨h1, h2⟩ := hw dst hl hd hs'
          by_cases he : d = dst
          · subst he; simp
          · simp only [he, if_false, h1, true_and]
            rw [if_neg (fun h => he h.symm)]
            exact h2
        | false =>
          cases onh with
          | none => exact absurd rfl (hev.1 rfl)
          | some nh =>
            have hv : ValidHop m v nh := by
              by_contra hc
              exact hs ((skips_iff v nh).2 hc)
            have hg : m.gwVlan v nh = some v := by
              rcases hev.2 nh rfl with h | h
              · exact absurd h hv.2
              · exact h
            refine ⟨_, _, rfl, ⟨behind_add hb v nh d, Dict.nodup_keys_set hgood.1 d nh, ?_⟩, ?_⟩
            · intro d' nh' h
              rw [Dict.get?_set] at h
              split at h
              · injection h with h
                exact h ▸ hg
              · exact hgood.2 d' nh' h
            intro dst hl hd hs'
            simp only [lastWord, hv, and_true]
            rw [Dict.get?_set, get_addRoute hg]
            obtain ⟨h1, h2⟩ := hw dst hl hd hs'
            rw [h1, h2]
            exact ⟨rfl, rfl⟩

end

end Faucet.Route
