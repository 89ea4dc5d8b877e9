import Verif.Route.Flows
import Verif.Route.Resolve
import Verif.OpenFlow.Datapath

/-!
# What stays true of the routes and the FIB
-/

namespace Faucet.Route
open Faucet.OF Faucet Faucet.FlowReorder

/-! ## Configuration -/

/-- What the configuration guarantees or has to guarantee: VLANs have different VIDs below 4096, routers route VLANs of the
switch, and no two VLANs whose traffic shares FIB entries have overlapping VIP networks (`faucet/dp.py` 1287-1308 checks
this within a router, except for link-local VIPs). The FIB table has a real number, and L2 forwarding is another table than
the VIP table. -/
structure ConfOk (m : Mgr) (vs : List Vlan) : Prop where
  distinct : ∀ u ∈ vs, ∀ v ∈ vs, u.vid = v.vid → u = v
  vid : ∀ v ∈ vs, v.vid < 4096
  global : m.globalVid < 4096
  routers : ∀ r ∈ m.routers, ∀ u ∈ r.vlans, u ∈ vs
  apart : ∀ u ∈ vs, ∀ v ∈ vs, ∀ rv ip, rv ∈ m.routed u → rv ∈ m.routed v → (u.vipMap m.width ip).isSome →
    (v.vipMap m.width ip).isSome → u = v
  table : m.fib.id ≠ tableAll
  tables : m.toL2 ≠ m.vip.id

theorem routed_lt {m : Mgr} {vs : List Vlan} (hc : ConfOk m vs) {v : Vlan} (hv : v ∈ vs) {rv : Nat} (h : rv ∈ m.routed v) :
    rv < 4096 := by
  unfold Mgr.routed at h
  split at h
  · simp at h; subst h; exact hc.global
  · rcases List.mem_cons.1 h with rfl | h
    · exact hc.vid v hv
    · simp only [List.mem_flatMap, List.mem_filter, List.mem_map] at h
      obtain ⟨r, ⟨hr, _⟩, u, hu, rfl⟩ := h
      exact hc.vid u (hc.routers r hr u hu)

theorem has_of_mem {r : Router} {u : Vlan} (h : u ∈ r.vlans) : r.has u.vid = true := by
  unfold Router.has
  rw [List.any_eq_true]
  exact ⟨u, h, by simp⟩

theorem mem_of_has {m : Mgr} {vs : List Vlan} (hc : ConfOk m vs) {r : Router} (hr : r ∈ m.routers) {v : Vlan} (hv : v ∈ vs)
    (h : r.has v.vid = true) : v ∈ r.vlans := by
  unfold Router.has at h
  rw [List.any_eq_true] at h
  obtain ⟨u, hu, he⟩ := h
  have := hc.distinct u (hc.routers r hr u hu) v hv (by simpa using he)
  exact this ▸ hu

/-- VLANs of one router share a routed VLAN. -/
theorem routed_meet {m : Mgr} {r : Router} (hr : r ∈ m.routers) {u v : Vlan} (hu : u ∈ r.vlans) (hv : v ∈ r.vlans) :
    ∃ rv, rv ∈ m.routed u ∧ rv ∈ m.routed v := by
  unfold Mgr.routed
  split
  · exact ⟨m.globalVid, by simp⟩
  · refine ⟨v.vid, ?_, by simp⟩
    refine List.mem_cons_of_mem _ ?_
    simp only [List.mem_flatMap, List.mem_filter, List.mem_map]
    exact ⟨r, ⟨hr, has_of_mem hu⟩, v, hv, rfl⟩

theorem vipMap_isSome {w : Nat} {v : Vlan} {ip : Nat} : (v.vipMap w ip).isSome = true ↔ ∃ x ∈ v.vips, (x.net w).contains w ip = true := by
  unfold Vlan.vipMap
  rw [List.find?_isSome]

theorem vipStep_some {w ip : Nat} (l : List (Vlan × Vip)) (b : Option (Vlan × Vip)) (e : Vlan × Vip)
    (h : l.foldl (vipStep w ip) b = some e) : b = some e ∨ (e ∈ l ∧ (e.2.net w).contains w ip = true) := by
  induction l generalizing b with
  | nil => exact Or.inl h
  | cons a l ih =>
    rw [List.foldl_cons] at h
    rcases ih _ h with h1 | ⟨h1, h2⟩
    · unfold vipStep at h1
      split at h1
      · rename_i hc
        split at h1
        · injection h1 with h1; subst h1; exact Or.inr ⟨by simp, hc⟩
        · split at h1
          · injection h1 with h1; subst h1; exact Or.inr ⟨by simp, hc⟩
          · exact Or.inl h1
      · exact Or.inl h1
    · exact Or.inr ⟨List.mem_cons_of_mem _ h1, h2⟩

theorem vipStep_isSome {w ip : Nat} (l : List (Vlan × Vip)) (b : Option (Vlan × Vip))
    (h : b.isSome = true ∨ ∃ e ∈ l, (e.2.net w).contains w ip = true) : (l.foldl (vipStep w ip) b).isSome = true := by
  induction l generalizing b with
  | nil =>
    rcases h with h | ⟨e, he, _⟩
    · exact h
    · cases he
  | cons a l ih =>
    rw [List.foldl_cons]
    refine ih _ ?_
    by_cases ha : (a.2.net w).contains w ip = true
    · left
      unfold vipStep
      rw [if_pos ha]
      split
      · rfl
      · split <;> rfl
    · unfold vipStep
      rw [if_neg ha]
      rcases h with h | ⟨e, he, hc⟩
      · exact Or.inl h
      · rcases List.mem_cons.1 he with rfl | he
        · exact absurd hc ha
        · exact Or.inr ⟨e, he, hc⟩

theorem router_vipMap_some {w ip : Nat} {r : Router} {u : Vlan} {x : Vip} (h : r.vipMap w ip = some (u, x)) :
    u ∈ r.vlans ∧ x ∈ u.vips ∧ (x.net w).contains w ip = true := by
  unfold Router.vipMap at h
  rcases vipStep_some _ _ _ h with h | ⟨h, hc⟩
  · cases h
  · simp only [List.mem_flatMap, List.mem_map] at h
    obtain ⟨v, hv, y, hy, he⟩ := h
    injection he with h1 h2
    subst h1 h2
    exact ⟨hv, hy, hc⟩

theorem vipFor_some {m : Mgr} {vs : List Vlan} (hc : ConfOk m vs) {v : Vlan} (hv : v ∈ vs) {ip : Nat} {u : Vlan} {x : Vip}
    (h : m.vipFor v ip = some (u, x)) : u ∈ vs ∧ x ∈ u.vips ∧ (u.vipMap m.width ip).isSome := by
  unfold Mgr.vipFor at h
  split at h
  · cases hm : v.vipMap m.width ip with
    | none => rw [hm] at h; cases h
    | some y =>
      rw [hm] at h
      injection h with h
      injection h with h1 h2
      subst h1 h2
      refine ⟨hv, ?_, by rw [hm]; rfl⟩
      unfold Vlan.vipMap at hm
      exact List.mem_of_find?_eq_some hm
  · rename_i r hr
    obtain ⟨h1, h2, h3⟩ := router_vipMap_some h
    have hr' : r ∈ m.routers := List.mem_of_find?_eq_some hr
    exact ⟨hc.routers r hr' u h1, h2, vipMap_isSome.2 ⟨x, h2, h3⟩⟩

theorem gwVlan_eq (m : Mgr) (v : Vlan) (gw : Nat) : m.gwVlan v gw = (m.vipFor v gw).map (·.1) := by
  unfold Mgr.gwVlan Mgr.vipFor
  cases m.routerFor v with
  | none =>
    simp only
    cases v.vipMap m.width gw <;> simp
  | some r => rfl

theorem gwVlan_some {m : Mgr} {vs : List Vlan} (hc : ConfOk m vs) {v : Vlan} (hv : v ∈ vs) {gw : Nat} {u : Vlan}
    (h : m.gwVlan v gw = some u) : u ∈ vs ∧ (u.vipMap m.width gw).isSome := by
  rw [gwVlan_eq] at h
  cases hf : m.vipFor v gw with
  | none => rw [hf] at h; cases h
  | some e =>
    rw [hf] at h
    injection h with h
    subst h
    have := vipFor_some hc hv (u := e.1) (x := e.2) hf
    exact ⟨this.1, this.2.2⟩

/-- The VLAN of a gateway in the VLAN's own networks is the VLAN itself. -/
theorem gwVlan_self {m : Mgr} {vs : List Vlan} (hc : ConfOk m vs) {v : Vlan} (hv : v ∈ vs) {gw : Nat}
    (h : (v.vipMap m.width gw).isSome) : m.gwVlan v gw = some v := by
  cases hf : m.gwVlan v gw with
  | none =>
    exfalso
    unfold Mgr.gwVlan at hf
    split at hf
    · rename_i r hr
      have hr' : r ∈ m.routers := List.mem_of_find?_eq_some hr
      have hh : r.has v.vid = true := by
        have := List.find?_some hr
        simpa using this
      have hvr := mem_of_has hc hr' hv hh
      obtain ⟨x, hx, hcx⟩ := vipMap_isSome.1 h
      have : (r.vipMap m.width gw).isSome = true := by
        unfold Router.vipMap
        refine vipStep_isSome _ _ (Or.inr ⟨(v, x), ?_, hcx⟩)
        simp only [List.mem_flatMap, List.mem_map]
        exact ⟨v, hvr, x, hx, rfl⟩
      cases hm : r.vipMap m.width gw with
      | none => rw [hm] at this; cases this
      | some e => rw [hm] at hf; cases hf
    · rw [if_pos h] at hf; cases hf
  | some u =>
    have hu := gwVlan_some hc hv hf
    congr 1
    unfold Mgr.gwVlan at hf
    split at hf
    · rename_i r hr
      have hr' : r ∈ m.routers := List.mem_of_find?_eq_some hr
      have hh : r.has v.vid = true := by
        have := List.find?_some hr
        simpa using this
      have hvr := mem_of_has hc hr' hv hh
      cases hm : r.vipMap m.width gw with
      | none => rw [hm] at hf; cases hf
      | some e =>
        rw [hm] at hf
        injection hf with hf
        have hur := (router_vipMap_some (u := e.1) (x := e.2) hm).1
        have hf : e.1 = u := hf
        rw [hf] at hur
        obtain ⟨rv, h1, h2⟩ := routed_meet hr' hur hvr
        exact hc.apart u hu.1 v hv rv gw h1 h2 hu.2 h
    · rw [if_pos h] at hf
      injection hf with hf
      exact hf.symm

/-! ## The invariant -/

/-- The flow forwards: it goes on to L2 forwarding. -/
def Mgr.forwards (m : Mgr) (b : Body) : Prop := instGoto b.inst = some m.toL2

theorem forwards_route (m : Mgr) (v : Vlan) (mac : Nat) : m.forwards (m.routeBody v mac) := rfl
theorem not_forwards_hole (m : Mgr) (hard : Nat) : ¬ m.forwards (m.holeBody hard) := by
  unfold Mgr.forwards Mgr.holeBody instGoto; simp

/-- What holds of the routing state `st` and the flows `F`, when only prefixes satisfying `P` have been routed, starting from
flows `F0`. -/
structure Inv (m : Mgr) (vs : List Vlan) (P : Net → Prop) (F0 : Slot → Option Body) (st : St) (F : Slot → Option Body) : Prop where
  idx : ∀ v ∈ vs, ∀ gw dst, dst ∈ (st v.vid).dsts gw ↔ (st v.vid).routes.get? dst = some gw
  uniq : ∀ u ∈ vs, ∀ v ∈ vs, ∀ rv dst, rv ∈ m.routed u → rv ∈ m.routed v → (st u.vid).routes.get? dst ≠ none →
    (st v.vid).routes.get? dst ≠ none → u = v
  pair : ∀ v ∈ vs, ∀ gw n, (st v.vid).cache.get? gw = some n → (n.eth = none ↔ n.port = none)
  full : ∀ v ∈ vs, ∀ dst gw mac rv, (st v.vid).routes.get? dst = some gw → (st v.vid).eth gw = some mac →
    rv ∈ m.routed v → F (m.slot rv dst) = some (m.routeBody v mac)
  owned : ∀ rv dst b, rv < 4096 → F (m.slot rv dst) = some b → m.forwards b →
    ∃ v ∈ vs, rv ∈ m.routed v ∧ (st v.vid).routes.get? dst ≠ none ∧ ∃ mac, b = m.routeBody v mac
  bare : ∀ v ∈ vs, ∀ ip rv b, (st v.vid).routes.get? (hostNet m.width ip) = some ip → (st v.vid).eth ip = none →
    rv ∈ m.routed v → F (m.slot rv (hostNet m.width ip)) = some b → ¬ m.forwards b
  conn : ∀ v ∈ vs, ∀ ip gw, (st v.vid).routes.get? (hostNet m.width ip) = some gw →
    gw = ip ∨ ∀ u ∈ vs, u.vipMap m.width ip = none
  conn2 : ∀ v ∈ vs, ∀ gw, ((∃ dst, (st v.vid).routes.get? dst = some gw) ∨ gw ∈ (st v.vid).hostGws ∨
    gw ∈ (st v.vid).unresHost) → (v.vipMap m.width gw).isSome
  allowed : ∀ v ∈ vs, ∀ dst, (st v.vid).routes.get? dst ≠ none → P dst
  outside : ∀ s, s.table = m.fib.id → (¬ ∃ rv dst, P dst ∧ s = m.slot rv dst) → F s = F0 s

/-- A prefix may be routed via a gateway in a VLAN: it has no other gateway there, and no VLAN that shares FIB entries with
it routes the prefix. -/
def Addable (m : Mgr) (vs : List Vlan) (st : St) (u : Vlan) (gw : Nat) (dst : Net) : Prop :=
  ((st u.vid).routes.get? dst = none ∨ (st u.vid).routes.get? dst = some gw) ∧
  ∀ v ∈ vs, v ≠ u → (∃ rv, rv ∈ m.routed u ∧ rv ∈ m.routed v) → (st v.vid).routes.get? dst = none

section
variable {m : Mgr} {vs : List Vlan} {P : Net → Prop} {F0 : Slot → Option Body} {st : St} {F : Slot → Option Body}

theorem slot_ne (hc : ConfOk m vs) {u v : Vlan} (hu : u ∈ vs) (hv : v ∈ vs) {rv rv' : Nat} (h : rv ∈ m.routed u)
    (h' : rv' ∈ m.routed v) {d d' : Net} (he : m.slot rv d = m.slot rv' d') : rv = rv' ∧ d = d' :=
  (slot_inj (routed_lt hc hu h) (routed_lt hc hv h')).1 he

/-- Changes of cache entries that keep the MACs, and of the lists of unresolved gateways. -/
theorem inv_hop (hi : Inv m vs P F0 st F) (v : Vlan) (s : VState) (hr : s.routes = (st v.vid).routes)
    (hg : s.gws = (st v.vid).gws) (hh : s.hostGws = (st v.vid).hostGws)
    (he : ∀ gw, s.eth gw = (st v.vid).eth gw) (hp : ∀ gw n, s.cache.get? gw = some n → (n.eth = none ↔ n.port = none))
    (hun : ∀ gw ∈ s.unresHost, gw ∈ (st v.vid).unresHost ∨ gw ∈ (st v.vid).hostGws) : Inv m vs P F0 (st.upd v.vid s) F := by
  have hroutes : ∀ k, ((st.upd v.vid s) k).routes = (st k).routes := by
    intro k
    by_cases h : k = v.vid
    · subst h; rw [upd_self, hr]
    · rw [upd_ne _ _ h]
  have hdsts : ∀ k gw, ((st.upd v.vid s) k).dsts gw = (st k).dsts gw := by
    intro k gw
    by_cases h : k = v.vid
    · subst h; rw [upd_self]; unfold VState.dsts; rw [hg]
    · rw [upd_ne _ _ h]
  have heth : ∀ k gw, ((st.upd v.vid s) k).eth gw = (st k).eth gw := by
    intro k gw
    by_cases h : k = v.vid
    · subst h; rw [upd_self]; exact he gw
    · rw [upd_ne _ _ h]
  refine ⟨?_, ?_, ?_, ?_, ?_, ?_, ?_, ?_, ?_, hi.outside⟩
  · intro u hu gw dst; rw [hroutes, hdsts]; exact hi.idx u hu gw dst
  · intro u hu w hw rv dst; rw [hroutes, hroutes]; exact hi.uniq u hu w hw rv dst
  · intro u hu gw n h
    by_cases hk : u.vid = v.vid
    · rw [hk, upd_self] at h; exact hp gw n h
    · rw [upd_ne _ _ hk] at h; exact hi.pair u hu gw n h
  · intro u hu dst gw mac rv; rw [hroutes, heth]; exact hi.full u hu dst gw mac rv
  · intro rv dst b h1 h2 h3
    obtain ⟨u, hu, h4, h5, h6⟩ := hi.owned rv dst b h1 h2 h3
    exact ⟨u, hu, h4, by rw [hroutes]; exact h5, h6⟩
  · intro u hu ip rv b; rw [hroutes, heth]; exact hi.bare u hu ip rv b
  · intro u hu ip gw; rw [hroutes]; exact hi.conn u hu ip gw
  · intro u hu gw
    rw [hroutes]
    rintro (h | h)
    · exact hi.conn2 u hu gw (Or.inl h)
    · by_cases hk : u.vid = v.vid
      · rw [hk, upd_self, hh] at h
        rcases h with h | h
        · exact hi.conn2 u hu gw (Or.inr (Or.inl (hk ▸ h)))
        · rcases hun gw h with h | h
          · exact hi.conn2 u hu gw (Or.inr (Or.inr (hk ▸ h)))
          · exact hi.conn2 u hu gw (Or.inr (Or.inl (hk ▸ h)))
      · rw [upd_ne _ _ hk] at h
        exact hi.conn2 u hu gw (Or.inr h)
  · intro u hu dst; rw [hroutes]; exact hi.allowed u hu dst

/-- `_update_nexthop`. -/
theorem inv_update (hc : ConfOk m vs) (hi : Inv m vs P F0 st F) {v : Vlan} (hv : v ∈ vs) (now : Int) (port mac gw : Nat) :
    Inv m vs P F0 (m.updateNexthop st now v port mac gw).1 (after (m.updateNexthop st now v port mac gw).2 F) := by
  have hroutes : ∀ k, ((m.updateNexthop st now v port mac gw).1 k).routes = (st k).routes := by
    intro k
    unfold Mgr.updateNexthop
    by_cases h : k = v.vid
    · subst h; simp only [upd_self]; rfl
    · simp only [upd_ne _ _ h]
  have hdsts : ∀ k g, ((m.updateNexthop st now v port mac gw).1 k).dsts g = (st k).dsts g := by
    intro k g
    unfold Mgr.updateNexthop
    by_cases h : k = v.vid
    · subst h; simp only [upd_self]; rfl
    · simp only [upd_ne _ _ h]
  have hhost : ∀ k, ((m.updateNexthop st now v port mac gw).1 k).hostGws = (st k).hostGws ∧
      ((m.updateNexthop st now v port mac gw).1 k).unresHost = (st k).unresHost := by
    intro k
    unfold Mgr.updateNexthop
    by_cases h : k = v.vid
    · subst h; simp only [upd_self]; exact ⟨rfl, rfl⟩
    · simp only [upd_ne _ _ h, and_self]
  have heth : ∀ u ∈ vs, ∀ g, ((m.updateNexthop st now v port mac gw).1 u.vid).eth g =
      if u = v ∧ g = gw then some mac else (st u.vid).eth g := by
    intro u hu g
    unfold Mgr.updateNexthop
    by_cases h : u.vid = v.vid
    · have huv := hc.distinct u hu v hv h
      subst huv
      simp only [upd_self, VState.eth, VState.setHop]
      rw [Dict.get?_set]
      by_cases hg : gw = g
      · subst hg; simp [NextHop.new]
      · rw [if_neg hg, if_neg (by rintro ⟨_, h⟩; exact hg h.symm)]
    · simp only [upd_ne _ _ h]
      rw [if_neg (by rintro ⟨h', _⟩; exact h (by rw [h']))]
  -- the flows
  have hF1 : ∀ dst ∈ (st v.vid).dsts gw, ∀ s, m.At v dst s →
      after (m.updateNexthop st now v port mac gw).2 F s = some (m.routeBody v mac) := by
    intro dst hd s hs
    unfold after Mgr.updateNexthop Mgr.nexthopFlows
    rw [flowMods_of]
    split
    · exact (nexthop_after hc.table v _ mac _ s _).1 ⟨dst, hd, hs⟩
    · rename_i hmac
      have hmac : (st v.vid).eth gw = some mac := by simpa using hmac
      obtain ⟨rv, hrv, rfl⟩ := hs
      exact hi.full v hv dst gw mac rv ((hi.idx v hv gw dst).1 hd) hmac hrv
  have hF2 : ∀ s, (¬ ∃ dst ∈ (st v.vid).dsts gw, m.At v dst s) → after (m.updateNexthop st now v port mac gw).2 F s = F s := by
    intro s hs
    unfold after Mgr.updateNexthop Mgr.nexthopFlows
    rw [flowMods_of]
    split
    · exact (nexthop_after hc.table v _ mac _ s _).2 hs
    · rfl
  refine ⟨?_, ?_, ?_, ?_, ?_, ?_, ?_, ?_, ?_, ?_⟩
  · intro u hu g dst; rw [hroutes, hdsts]; exact hi.idx u hu g dst
  · intro u hu w hw rv dst; rw [hroutes, hroutes]; exact hi.uniq u hu w hw rv dst
  · intro u hu g n h
    unfold Mgr.updateNexthop at h
    by_cases hk : u.vid = v.vid
    · rw [hk] at h
      simp only [upd_self, VState.setHop] at h
      rw [Dict.get?_set] at h
      by_cases hg : gw = g
      · rw [if_pos hg] at h
        injection h with h
        subst h
        simp [NextHop.new]
      · rw [if_neg hg] at h; exact hi.pair u hu g n (hk ▸ h)
    · simp only [upd_ne _ _ hk] at h; exact hi.pair u hu g n h
  · intro u hu dst g mac' rv
    rw [hroutes, heth u hu]
    intro hr he hrv
    by_cases hug : u = v ∧ g = gw
    · rw [if_pos hug] at he
      injection he with he
      subst he
      obtain ⟨rfl, rfl⟩ := hug
      exact hF1 dst ((hi.idx u hu g dst).2 hr) _ ⟨rv, hrv, rfl⟩
    · rw [if_neg hug] at he
      rw [hF2]
      · exact hi.full u hu dst g mac' rv hr he hrv
      · rintro ⟨d, hd, rv', hrv', hs⟩
        obtain ⟨rfl, rfl⟩ := slot_ne hc hv hu hrv' hrv hs
        have hd' := (hi.idx v hv gw d).1 hd
        have := hi.uniq u hu v hv rv' d hrv hrv' (by rw [hr]; simp) (by rw [hd']; simp)
        subst this
        rw [hr] at hd'
        injection hd' with hd'
        exact hug ⟨rfl, hd'⟩
  · intro rv dst b h1 h2 h3
    by_cases hs : ∃ d ∈ (st v.vid).dsts gw, m.At v d (m.slot rv dst)
    · obtain ⟨d, hd, rv', hrv', hs⟩ := hs
      obtain ⟨rfl, rfl⟩ := (slot_inj (routed_lt hc hv hrv') h1).1 hs
      refine ⟨v, hv, hrv', by rw [hroutes, (hi.idx v hv gw d).1 hd]; simp, mac, ?_⟩
      rw [hF1 d hd _ ⟨_, hrv', rfl⟩] at h2
      exact (Option.some.inj h2).symm
    · rw [hF2 _ hs] at h2
      obtain ⟨u, hu, h4, h5, h6⟩ := hi.owned rv dst b h1 h2 h3
      exact ⟨u, hu, h4, by rw [hroutes]; exact h5, h6⟩
  · intro u hu ip rv b
    rw [hroutes, heth u hu]
    intro hr he hrv hb
    by_cases hug : u = v ∧ ip = gw
    · rw [if_pos hug] at he; cases he
    · rw [if_neg hug] at he
      rw [hF2] at hb
      · exact hi.bare u hu ip rv b hr he hrv hb
      · rintro ⟨d, hd, rv', hrv', hs⟩
        obtain ⟨rfl, rfl⟩ := slot_ne hc hv hu hrv' hrv hs
        have hd' := (hi.idx v hv gw _).1 hd
        have := hi.uniq u hu v hv rv' _ hrv hrv' (by rw [hr]; simp) (by rw [hd']; simp)
        subst this
        rw [hr] at hd'
        injection hd' with hd'
        exact hug ⟨rfl, hd'⟩
  · intro u hu ip g; rw [hroutes]; exact hi.conn u hu ip g
  · intro u hu g; rw [hroutes, (hhost _).1, (hhost _).2]; exact hi.conn2 u hu g
  · intro u hu dst; rw [hroutes]; exact hi.allowed u hu dst
  · intro s hs hP
    rw [hF2]
    · exact hi.outside s hs hP
    · rintro ⟨d, hd, rv, _, rfl⟩
      have hd' := (hi.idx v hv gw d).1 hd
      exact hP ⟨rv, d, hi.allowed v hv d (by rw [hd']; simp), rfl⟩

theorem addable_none {u : Vlan} {gw : Nat} {dst : Net} (ha : Addable m vs st u gw dst)
    (hn : (st u.vid).routes.get? dst ≠ some gw) {v : Vlan} (hv : v ∈ vs) {rv : Nat} (h1 : rv ∈ m.routed u) (h2 : rv ∈ m.routed v) :
    (st v.vid).routes.get? dst = none := by
  by_cases h : v = u
  · subst h
    rcases ha.1 with h | h
    · exact h
    · exact absurd h hn
  · exact ha.2 v hv h ⟨rv, h1, h2⟩

/-- Lines 852-863: a route is added. -/
theorem inv_put (hc : ConfOk m vs) (hi : Inv m vs P F0 st F) {v : Vlan} (hv : v ∈ vs) (gw : Nat) (dst : Net)
    (ha : Addable m vs st v gw dst) (hn : (st v.vid).routes.get? dst ≠ some gw) (hP : P dst)
    (hconn : (v.vipMap m.width gw).isSome)
    (hself : ∀ ip, dst = hostNet m.width ip → gw = ip ∨ ∀ u ∈ vs, u.vipMap m.width ip = none) :
    Inv m vs P F0 (m.putRoute st v gw dst).1 (after (m.putRoute st v gw dst).2 F) := by
  have hnone := fun {u : Vlan} (hu : u ∈ vs) {rv : Nat} (h1 : rv ∈ m.routed v) (h2 : rv ∈ m.routed u) =>
    addable_none ha hn hu h1 h2
  have hvr : ∃ rv, rv ∈ m.routed v := by
    unfold Mgr.routed
    split
    · exact ⟨m.globalVid, by simp⟩
    · exact ⟨v.vid, by simp⟩
  have hvnone : (st v.vid).routes.get? dst = none := by
    obtain ⟨rv, h⟩ := hvr
    exact hnone hv h h
  have hroutes : ∀ u ∈ vs, ∀ d, ((m.putRoute st v gw dst).1 u.vid).routes.get? d =
      if u = v ∧ d = dst then some gw else (st u.vid).routes.get? d := by
    intro u hu d
    unfold Mgr.putRoute
    by_cases h : u.vid = v.vid
    · have huv := hc.distinct u hu v hv h
      subst huv
      simp only [upd_self]
      rw [routes_addRoute, Dict.get?_set]
      by_cases hd : dst = d
      · subst hd; simp
      · rw [if_neg hd, if_neg (by rintro ⟨_, h⟩; exact hd h.symm)]
    · simp only [upd_ne _ _ h]
      rw [if_neg (by rintro ⟨h', _⟩; exact h (by rw [h']))]
  have hdsts : ∀ u ∈ vs, ∀ g, ((m.putRoute st v gw dst).1 u.vid).dsts g =
      if u = v ∧ g = gw then setAdd ((st v.vid).dsts gw) dst else (st u.vid).dsts g := by
    intro u hu g
    unfold Mgr.putRoute
    by_cases h : u.vid = v.vid
    · have huv := hc.distinct u hu v hv h
      subst huv
      simp only [upd_self]
      rw [dsts_addRoute]
      by_cases hg : g = gw
      · subst hg; simp
      · rw [if_neg hg, if_neg (by rintro ⟨_, h⟩; exact hg h)]
    · simp only [upd_ne _ _ h]
      rw [if_neg (by rintro ⟨h', _⟩; exact h (by rw [h']))]
  have hcache : ∀ k, ((m.putRoute st v gw dst).1 k).cache = (st k).cache := by
    intro k
    unfold Mgr.putRoute
    by_cases h : k = v.vid
    · subst h; simp only [upd_self]; unfold VState.addRoute; rw [updateGwTypes_cache]; rfl
    · simp only [upd_ne _ _ h]
  have heth : ∀ k g, ((m.putRoute st v gw dst).1 k).eth g = (st k).eth g := by
    intro k g; unfold VState.eth; rw [hcache]
  have hF1 : ∀ mac, (st v.vid).eth gw = some mac → ∀ s, m.At v dst s →
      after (m.putRoute st v gw dst).2 F s = some (m.routeBody v mac) := by
    intro mac hm s hs
    unfold after Mgr.putRoute
    simp only [hm]
    rw [flowMods_of]
    exact (addResolved_after hc.table v dst mac false s _).1 hs
  have hF2 : ∀ s, ((st v.vid).eth gw = none ∨ ¬ m.At v dst s) → after (m.putRoute st v gw dst).2 F s = F s := by
    intro s hs
    unfold after Mgr.putRoute
    cases hm : (st v.vid).eth gw with
    | none => rfl
    | some mac =>
      simp only
      rw [flowMods_of]
      rcases hs with hs | hs
      · rw [hm] at hs; cases hs
      · exact (addResolved_after hc.table v dst mac false s _).2 hs
  refine ⟨?_, ?_, ?_, ?_, ?_, ?_, ?_, ?_, ?_, ?_⟩
  · intro u hu g d
    rw [hroutes u hu, hdsts u hu]
    by_cases hug : u = v ∧ g = gw
    · obtain ⟨rfl, rfl⟩ := hug
      simp only [and_self, if_true, true_and, mem_setAdd]
      by_cases hd : d = dst
      · subst hd; simp
      · simp only [hd, if_false, false_or]; exact hi.idx u hu g d
    · rw [if_neg hug, hi.idx u hu g d]
      by_cases hud : u = v ∧ d = dst
      · obtain ⟨rfl, rfl⟩ := hud
        simp only [and_self, if_true, hvnone]
        constructor
        · intro h; cases h
        · intro h; injection h with h; exact absurd ⟨rfl, h.symm⟩ hug
      · rw [if_neg hud]
  · intro u hu w hw rv d h1 h2
    rw [hroutes u hu, hroutes w hw]
    intro h3 h4
    by_cases hu' : u = v ∧ d = dst
    · obtain ⟨rfl, rfl⟩ := hu'
      by_cases hw' : w = u
      · exact hw'.symm
      · rw [if_neg (by rintro ⟨h, _⟩; exact hw' h), hnone hw h1 h2] at h4
        exact absurd rfl h4
    · rw [if_neg hu'] at h3
      by_cases hw' : w = v ∧ d = dst
      · obtain ⟨rfl, rfl⟩ := hw'
        exact absurd (hnone hu h2 h1) h3
      · rw [if_neg hw'] at h4
        exact hi.uniq u hu w hw rv d h1 h2 h3 h4
  · intro u hu g n; rw [hcache]; exact hi.pair u hu g n
  · intro u hu d g mac rv
    rw [hroutes u hu, heth]
    intro h1 h2 h3
    by_cases hud : u = v ∧ d = dst
    · obtain ⟨rfl, rfl⟩ := hud
      simp only [and_self, if_true] at h1
      injection h1 with h1
      subst h1
      exact hF1 mac h2 _ ⟨rv, h3, rfl⟩
    · rw [if_neg hud] at h1
      rw [hF2]
      · exact hi.full u hu d g mac rv h1 h2 h3
      · right
        rintro ⟨rv', hrv', hs⟩
        obtain ⟨rfl, rfl⟩ := slot_ne hc hv hu hrv' h3 hs
        rw [hnone hu hrv' h3] at h1
        cases h1
  · intro rv d b h1 h2 h3
    by_cases hs : m.At v dst (m.slot rv d)
    · obtain ⟨rv', hrv', hs⟩ := hs
      obtain ⟨rfl, rfl⟩ := (slot_inj (routed_lt hc hv hrv') h1).1 hs
      refine ⟨v, hv, hrv', by rw [hroutes v hv]; simp, ?_⟩
      cases hm : (st v.vid).eth gw with
      | none =>
        rw [hF2 _ (Or.inl hm)] at h2
        obtain ⟨w, hw, h4, h5, -⟩ := hi.owned _ _ b h1 h2 h3
        exact absurd (hnone hw hrv' h4) h5
      | some mac =>
        rw [hF1 mac hm _ ⟨_, hrv', rfl⟩] at h2
        exact ⟨mac, (Option.some.inj h2).symm⟩
    · rw [hF2 _ (Or.inr hs)] at h2
      obtain ⟨u, hu, h4, h5, h6⟩ := hi.owned rv d b h1 h2 h3
      refine ⟨u, hu, h4, ?_, h6⟩
      rw [hroutes u hu]
      split
      · simp
      · exact h5
  · intro u hu ip rv b
    rw [hroutes u hu, heth]
    intro h1 h2 h3 h4
    by_cases hud : u = v ∧ hostNet m.width ip = dst
    · rw [if_pos hud] at h1
      injection h1 with h1
      subst h1
      obtain ⟨rfl, hd⟩ := hud
      rw [hF2 _ (Or.inl h2)] at h4
      intro hfwd
      obtain ⟨w, hw, h5, h6, -⟩ := hi.owned rv _ b (routed_lt hc hu h3) h4 hfwd
      rw [hd] at h6
      exact h6 (hnone hw h3 h5)
    · rw [if_neg hud] at h1
      rw [hF2] at h4
      · exact hi.bare u hu ip rv b h1 h2 h3 h4
      · right
        rintro ⟨rv', hrv', hs⟩
        obtain ⟨rfl, hd⟩ := slot_ne hc hv hu hrv' h3 hs
        rw [← hd, hnone hu hrv' h3] at h1
        cases h1
  · intro u hu ip g
    rw [hroutes u hu]
    intro h
    by_cases hud : u = v ∧ hostNet m.width ip = dst
    · rw [if_pos hud] at h
      injection h with h
      subst h
      exact hself ip hud.2.symm
    · rw [if_neg hud] at h; exact hi.conn u hu ip g h
  · intro u hu g h
    by_cases huv : u = v
    · subst huv
      by_cases hg : g = gw
      · subst hg; exact hconn
      · refine hi.conn2 u hu g ?_
        rcases h with ⟨d, h⟩ | h | h
        · rw [hroutes u hu] at h
          by_cases hd : d = dst
          · subst hd; simp at h; exact absurd h.symm hg
          · rw [if_neg (by rintro ⟨_, h⟩; exact hd h)] at h
            exact Or.inl ⟨d, h⟩
        · unfold Mgr.putRoute at h
          simp only [upd_self] at h
          unfold VState.addRoute at h
          rw [mem_hostGws_update, if_neg hg] at h
          exact Or.inr (Or.inl h)
        · unfold Mgr.putRoute at h
          simp only [upd_self] at h
          unfold VState.addRoute at h
          rw [updateGwTypes_unresHost] at h
          exact Or.inr (Or.inr h)
    · refine hi.conn2 u hu g ?_
      have hk : u.vid ≠ v.vid := fun h => huv (hc.distinct u hu v hv h)
      unfold Mgr.putRoute at h
      simp only [upd_ne _ _ hk] at h
      exact h
  · intro u hu d
    rw [hroutes u hu]
    intro h
    by_cases hud : u = v ∧ d = dst
    · rw [hud.2]; exact hP
    · rw [if_neg hud] at h; exact hi.allowed u hu d h
  · intro s hs hout
    rw [hF2]
    · exact hi.outside s hs hout
    · right
      rintro ⟨rv, _, rfl⟩
      exact hout ⟨rv, dst, hP, rfl⟩

/-- `add_route`. -/
theorem inv_add (hc : ConfOk m vs) (hi : Inv m vs P F0 st F) {v : Vlan} (hv : v ∈ vs) (gw : Nat) (dst : Net)
    (ha : ∀ u, m.gwVlan v gw = some u → Addable m vs st u gw dst) (hP : P dst)
    (hself : ∀ ip, dst = hostNet m.width ip → gw = ip ∨ ∀ u ∈ vs, u.vipMap m.width ip = none) :
    Inv m vs P F0 (m.addRoute st v gw dst).1 (after (m.addRoute st v gw dst).2 F) := by
  unfold Mgr.addRoute
  cases hg : m.gwVlan v gw with
  | none => exact hi
  | some u =>
    obtain ⟨hu, hcon⟩ := gwVlan_some hc hv hg
    simp only [Vlan.isVipNet, Bool.false_eq_true, if_false]
    by_cases hr : (st u.vid).routes.get? dst = some gw
    · rw [if_pos hr]; exact hi
    · rw [if_neg hr]
      exact inv_put hc hi hu gw dst (ha u hg) hr hP hcon hself

/-- A host of a connected network may be routed via itself. -/
theorem addable_host (hc : ConfOk m vs) (hi : Inv m vs P F0 st F) {v : Vlan} (hv : v ∈ vs) {ip : Nat}
    (h : (v.vipMap m.width ip).isSome) : Addable m vs st v ip (hostNet m.width ip) := by
  constructor
  · cases hr : (st v.vid).routes.get? (hostNet m.width ip) with
    | none => exact Or.inl rfl
    | some gw =>
      right
      rcases hi.conn v hv ip gw hr with rfl | hn
      · rfl
      · rw [hn v hv] at h; cases h
  · rintro u hu hne ⟨rv, h1, h2⟩
    cases hr : (st u.vid).routes.get? (hostNet m.width ip) with
    | none => rfl
    | some gw =>
      exfalso
      rcases hi.conn u hu ip gw hr with rfl | hn
      · have := hi.conn2 u hu gw (Or.inl ⟨_, hr⟩)
        exact hne (hc.apart u hu v hv rv gw h2 h1 this h)
      · rw [hn v hv] at h; cases h

theorem inv_addHost (hc : ConfOk m vs) (hi : Inv m vs P F0 st F) {v : Vlan} (hv : v ∈ vs) {ip : Nat}
    (h : (v.vipMap m.width ip).isSome) (hP : P (hostNet m.width ip)) :
    Inv m vs P F0 (m.addRoute st v ip (hostNet m.width ip)).1 (after (m.addRoute st v ip (hostNet m.width ip)).2 F) := by
  refine inv_add hc hi hv ip _ ?_ hP ?_
  · intro u hu
    rw [gwVlan_self hc hv h] at hu
    injection hu with hu
    subst hu
    exact addable_host hc hi hv h
  · intro ip' he
    injection he with he _
    exact Or.inl he

theorem vipMap_of_subnet {w : Nat} {v : Vlan} {ip : Nat} (h : (v.subnetVip w ip).isSome) : (v.vipMap w ip).isSome := by
  unfold Vlan.subnetVip at h
  cases hm : v.vipMap w ip with
  | none => rw [hm] at h; cases h
  | some _ => rfl

theorem inv_learn (hc : ConfOk m vs) (hi : Inv m vs P F0 st F) {v : Vlan} (hv : v ∈ vs) (e : Env) (now : Int) (port mac : Nat)
    {ip : Nat} (h : (v.vipMap m.width ip).isSome) (hP : P (hostNet m.width ip)) :
    Inv m vs P F0 (m.learnHost e st now v port mac ip).1 (after (m.learnHost e st now v port mac ip).2 F) := by
  unfold Mgr.learnHost
  simp only
  rw [after_append]
  exact inv_update hc (inv_addHost hc hi hv h hP) hv now port mac ip

theorem inv_hostPkt (hc : ConfOk m vs) (hi : Inv m vs P F0 st F) {v : Vlan} (hv : v ∈ vs) (e : Env) (now : Int) (port mac : Nat)
    {ip : Nat} (hP : (v.subnetVip m.width ip).isSome → P (hostNet m.width ip)) :
    Inv m vs P F0 (m.hostPkt e st now v port mac ip).1 (after (m.hostPkt e st now v port mac ip).2 F) := by
  unfold Mgr.hostPkt
  split
  · rename_i h
    simp only [Bool.and_eq_true] at h
    exact inv_learn hc hi hv e now port mac (vipMap_of_subnet h.1) (hP h.1)
  · exact hi

theorem inv_askVip (hc : ConfOk m vs) (hi : Inv m vs P F0 st F) {v : Vlan} (hv : v ∈ vs) (e : Env) (now : Int) (port mac : Nat)
    {src : Nat} (target : Nat) (hP : (v.subnetVip m.width src).isSome → P (hostNet m.width src)) :
    Inv m vs P F0 (m.askVip e st now v port mac src target).1 (after (m.askVip e st now v port mac src target).2 F) := by
  unfold Mgr.askVip
  split
  · rename_i h
    simp only [Bool.and_eq_true] at h
    split
    · simp only
      rw [after_append]
      exact inv_learn hc hi hv e now port mac (vipMap_of_subnet h.2) (hP h.2)
    · exact hi
  · exact hi

theorem inv_advert (hc : ConfOk m vs) (hi : Inv m vs P F0 st F) {v : Vlan} (hv : v ∈ vs) (now : Int) (port mac target : Nat) :
    Inv m vs P F0 (m.advert st now v port mac target).1 (after (m.advert st now v port mac target).2 F) := by
  unfold Mgr.advert
  split
  · exact inv_update hc hi hv now port mac target
  · exact hi

/-- A host route and perhaps the host's cache entry are removed, with their flows if `fl`. -/
theorem inv_drop (hc : ConfOk m vs) (hi : Inv m vs P F0 st F) {v : Vlan} (hv : v ∈ vs) (dst : Net) (gw : Nat)
    (hr : (st v.vid).routes.get? dst = some gw) (s : VState)
    (hsr : ∀ d, s.routes.get? d = if d = dst then none else (st v.vid).routes.get? d)
    (hsd : ∀ g, s.dsts g = if g = gw then setDel ((st v.vid).dsts gw) dst else (st v.vid).dsts g)
    (hse : ∀ g, s.eth g = (st v.vid).eth g ∨ (s.eth g = none ∧ dst = hostNet m.width g))
    (hsp : ∀ g n, s.cache.get? g = some n → (n.eth = none ↔ n.port = none))
    (hsh : ∀ g, g ≠ gw → g ∈ s.hostGws → g ∈ (st v.vid).hostGws) (hsu : s.unresHost = (st v.vid).unresHost)
    (F' : Slot → Option Body) (hF : ∀ t, ¬ m.At v dst t → F' t = F t)
    (hF' : ∀ t b, m.At v dst t → F' t = some b → ¬ m.forwards b) (hF0 : ∀ t, t.table = m.fib.id → F' t ≠ F t → m.At v dst t) :
    Inv m vs P F0 (st.upd v.vid s) F' := by
  have hroutes : ∀ u ∈ vs, ∀ d, ((st.upd v.vid s) u.vid).routes.get? d =
      if u = v ∧ d = dst then none else (st u.vid).routes.get? d := by
    intro u hu d
    by_cases h : u.vid = v.vid
    · have huv := hc.distinct u hu v hv h
      subst huv
      rw [upd_self, hsr]
      simp
    · rw [upd_ne _ _ h, if_neg (by rintro ⟨h', _⟩; exact h (by rw [h']))]
  have heth : ∀ u ∈ vs, ∀ g, ((st.upd v.vid s) u.vid).eth g = (st u.vid).eth g ∨
      (((st.upd v.vid s) u.vid).eth g = none ∧ u = v ∧ dst = hostNet m.width g) := by
    intro u hu g
    by_cases h : u.vid = v.vid
    · have huv := hc.distinct u hu v hv h
      subst huv
      rw [upd_self]
      rcases hse g with h | ⟨h1, h2⟩
      · exact Or.inl h
      · exact Or.inr ⟨h1, rfl, h2⟩
    · rw [upd_ne _ _ h]; exact Or.inl rfl
  have hother : ∀ u ∈ vs, ∀ rv d, rv ∈ m.routed u → (st u.vid).routes.get? d ≠ none → ¬ (u = v ∧ d = dst) →
      ¬ m.At v dst (m.slot rv d) := by
    rintro u hu rv d h1 h2 h3 ⟨rv', h4, hs⟩
    obtain ⟨rfl, rfl⟩ := slot_ne hc hv hu h4 h1 hs
    exact h3 ⟨hi.uniq u hu v hv rv' dst h1 h4 h2 (by rw [hr]; simp), rfl⟩
  refine ⟨?_, ?_, ?_, ?_, ?_, ?_, ?_, ?_, ?_, ?_⟩
  · intro u hu g d
    rw [hroutes u hu]
    by_cases huv : u = v
    · subst huv
      rw [upd_self, hsd]
      by_cases hg : g = gw
      · subst hg
        rw [if_pos rfl, mem_setDel, hi.idx u hu g d]
        by_cases hd : d = dst
        · simp [hd]
        · simp [hd]
      · rw [if_neg hg, hi.idx u hu g d]
        by_cases hd : d = dst
        · subst hd
          rw [hr]
          simp only [and_self, if_true]
          constructor
          · intro h; injection h with h; exact absurd h.symm hg
          · intro h; cases h
        · simp [hd]
    · have hk : u.vid ≠ v.vid := fun h => huv (hc.distinct u hu v hv h)
      rw [upd_ne _ _ hk, if_neg (by rintro ⟨h', _⟩; exact huv h')]
      exact hi.idx u hu g d
  · intro u hu w hw rv d h1 h2
    rw [hroutes u hu, hroutes w hw]
    intro h3 h4
    refine hi.uniq u hu w hw rv d h1 h2 ?_ ?_
    · intro h; apply h3; split <;> first | rfl | exact h
    · intro h; apply h4; split <;> first | rfl | exact h
  · intro u hu g n h
    by_cases hk : u.vid = v.vid
    · rw [hk, upd_self] at h; exact hsp g n h
    · rw [upd_ne _ _ hk] at h; exact hi.pair u hu g n h
  · intro u hu d g mac rv
    rw [hroutes u hu]
    intro h1 h2 h3
    by_cases hud : u = v ∧ d = dst
    · rw [if_pos hud] at h1; cases h1
    · rw [if_neg hud] at h1
      rw [hF _ (hother u hu rv d h3 (by rw [h1]; simp) hud)]
      rcases heth u hu g with he | ⟨he, _⟩
      · rw [he] at h2; exact hi.full u hu d g mac rv h1 h2 h3
      · rw [he] at h2; cases h2
  · intro rv d b h1 h2 h3
    by_cases hs : m.At v dst (m.slot rv d)
    · exact absurd h3 (hF' _ b hs h2)
    · rw [hF _ hs] at h2
      obtain ⟨u, hu, h4, h5, h6⟩ := hi.owned rv d b h1 h2 h3
      refine ⟨u, hu, h4, ?_, h6⟩
      rw [hroutes u hu, if_neg]
      · exact h5
      · rintro ⟨rfl, rfl⟩
        exact hs ⟨rv, h4, rfl⟩
  · intro u hu ip rv b
    rw [hroutes u hu]
    intro h1 h2 h3 h4
    by_cases hud : u = v ∧ hostNet m.width ip = dst
    · rw [if_pos hud] at h1; cases h1
    · rw [if_neg hud] at h1
      rw [hF _ (hother u hu rv _ h3 (by rw [h1]; simp) hud)] at h4
      rcases heth u hu ip with he | ⟨_, h5, h6⟩
      · rw [he] at h2; exact hi.bare u hu ip rv b h1 h2 h3 h4
      · exact absurd ⟨h5, h6.symm⟩ hud
  · intro u hu ip g
    rw [hroutes u hu]
    intro h
    by_cases hud : u = v ∧ hostNet m.width ip = dst
    · rw [if_pos hud] at h; cases h
    · rw [if_neg hud] at h; exact hi.conn u hu ip g h
  · intro u hu g h
    by_cases huv : u = v
    · subst huv
      by_cases hg : g = gw
      · subst hg; exact hi.conn2 u hu g (Or.inl ⟨dst, hr⟩)
      · refine hi.conn2 u hu g ?_
        rcases h with ⟨d, h⟩ | h | h
        · rw [hroutes u hu] at h
          by_cases hd : u = u ∧ d = dst
          · rw [if_pos hd] at h; cases h
          · rw [if_neg hd] at h; exact Or.inl ⟨d, h⟩
        · rw [upd_self] at h; exact Or.inr (Or.inl (hsh g hg h))
        · rw [upd_self, hsu] at h; exact Or.inr (Or.inr h)
    · have hk : u.vid ≠ v.vid := fun h => huv (hc.distinct u hu v hv h)
      rw [upd_ne _ _ hk] at h
      exact hi.conn2 u hu g h
  · intro u hu d
    rw [hroutes u hu]
    intro h
    by_cases hud : u = v ∧ d = dst
    · rw [if_pos hud] at h; exact absurd rfl h
    · rw [if_neg hud] at h; exact hi.allowed u hu d h
  · intro t ht hP
    rw [← hi.outside t ht hP]
    by_contra hne
    obtain ⟨rv, _, rfl⟩ := hF0 t ht hne
    exact hP ⟨rv, dst, hi.allowed v hv dst (by rw [hr]; simp), rfl⟩

theorem delRoute_eq {v : Vlan} (hi : ∀ gw dst, dst ∈ (st v.vid).dsts gw ↔ (st v.vid).routes.get? dst = some gw) {w : Nat} (dst : Net) :
    (st v.vid).delRoute w dst = ((st v.vid).routes.get? dst).map (fun gw => ((st v.vid).unsetRoute dst gw).updateGwTypes w gw) := by
  unfold VState.delRoute
  cases hr : (st v.vid).routes.get? dst with
  | none => rfl
  | some gw =>
    simp only
    rw [if_pos ((hi gw dst).2 hr)]
    rfl

theorem cuts_after (hc : ConfOk m vs) (v : Vlan) (dst : Net) (F : Slot → Option Body) (t : Slot) :
    (m.At v dst t → after ((m.delRouteFlows v dst).map .of) F t = none) ∧
    (¬ m.At v dst t → after ((m.delRouteFlows v dst).map .of) F t = F t) := by
  unfold after
  rw [flowMods_of, delRouteFlows_eq]
  constructor
  · intro h; exact (slotAfter_cuts_map _ _ _ (fun _ => hc.table) t _).1 (at_iff.2 h)
  · intro h; exact (slotAfter_cuts_map _ _ _ (fun _ => hc.table) t _).2 (fun hh => h (at_iff.1 hh))

/-- No deletion of a route fails. -/
theorem del_route_no_error (hi : Inv m vs P F0 st F) {v : Vlan} (hv : v ∈ vs) (dst : Net)
    (h : (st v.vid).routes.get? dst ≠ none) : ((st v.vid).delRoute m.width dst).isSome := by
  rw [delRoute_eq (hi.idx v hv)]
  cases hr : (st v.vid).routes.get? dst with
  | none => exact absurd hr h
  | some _ => rfl

/-- `del_route`. -/
theorem inv_del (hc : ConfOk m vs) (hi : Inv m vs P F0 st F) {v : Vlan} (hv : v ∈ vs) (dst : Net) :
    Inv m vs P F0 (m.delRoute st v dst).1 (after (m.delRoute st v dst).2 F) := by
  unfold Mgr.delRoute
  simp only [Vlan.isVipNet, Bool.false_eq_true, if_false]
  rw [delRoute_eq (hi.idx v hv)]
  cases hr : (st v.vid).routes.get? dst with
  | none => exact hi
  | some gw =>
    simp only [Option.map_some]
    refine inv_drop hc hi hv dst gw hr _ ?_ ?_ ?_ ?_ ?_ ?_ _ ?_ ?_ ?_
    · intro d
      rw [updateGwTypes_routes]
      have : ((st v.vid).unsetRoute dst gw).routes = (st v.vid).routes.del dst := rfl
      rw [this, Dict.get?_del]
      by_cases hd : d = dst
      · subst hd; simp
      · simp [hd, Ne.symm hd]
    · intro g; rw [updateGwTypes_dsts, dsts_unsetRoute]
    · intro g; left; unfold VState.eth; rw [updateGwTypes_cache]; rfl
    · intro g n; rw [updateGwTypes_cache]; exact hi.pair v hv g n
    · intro g hg; rw [mem_hostGws_update, if_neg hg]; exact id
    · rw [updateGwTypes_unresHost]; rfl
    · intro t ht; exact (cuts_after hc v dst F t).2 ht
    · intro t b ht hb; rw [(cuts_after hc v dst F t).1 ht] at hb; cases hb
    · intro t _ hne
      by_contra ht
      exact hne ((cuts_after hc v dst F t).2 ht)

/-- `_expire_gateway_flows`, for an entry with a port, or a connected gateway that has no MAC. -/
theorem inv_expire (hc : ConfOk m vs) (hi : Inv m vs P F0 st F) {v : Vlan} (hv : v ∈ vs) (gw : Nat) (n : NextHop)
    (hn : n.port ≠ none ∨ ((st v.vid).eth gw = none ∧ (v.vipMap m.width gw).isSome)) :
    Inv m vs P F0 (m.expireGw st v gw n).1 (after (m.expireGw st v gw n).2 F) := by
  have hidx : ∀ g dst, dst ∈ ((st.upd v.vid ((st v.vid).delHop gw)) v.vid).dsts g ↔
      ((st.upd v.vid ((st v.vid).delHop gw)) v.vid).routes.get? dst = some g := by
    intro g dst
    rw [upd_self]
    exact hi.idx v hv g dst
  have hdel : Mgr.delRoute m (st.upd v.vid ((st v.vid).delHop gw)) v (hostNet m.width gw) =
      match (st v.vid).routes.get? (hostNet m.width gw) with
      | none => (st.upd v.vid ((st v.vid).delHop gw), [])
      | some g => ((st.upd v.vid ((st v.vid).delHop gw)).upd v.vid
          ((((st v.vid).delHop gw).unsetRoute (hostNet m.width gw) g).updateGwTypes m.width g),
          (m.delRouteFlows v (hostNet m.width gw)).map .of) := by
    unfold Mgr.delRoute
    simp only [Vlan.isVipNet, Bool.false_eq_true, if_false]
    rw [delRoute_eq hidx, upd_self]
    have : ((st v.vid).delHop gw).routes = (st v.vid).routes := rfl
    rw [this]
    cases (st v.vid).routes.get? (hostNet m.width gw) <;> rfl
  have hcacheget : ∀ g, ((st v.vid).delHop gw).cache.get? g = if g = gw then none else (st v.vid).cache.get? g := by
    intro g
    unfold VState.delHop
    rw [Dict.get?_del]
    by_cases h : g = gw
    · simp [h]
    · simp [h, Ne.symm h]
  have hethdel : ∀ g, ((st v.vid).delHop gw).eth g = if g = gw then none else (st v.vid).eth g := by
    intro g
    unfold VState.eth
    rw [hcacheget]
    split <;> rfl
  have hupd2 : ∀ a b : VState, ((st.upd v.vid a).upd v.vid b) = st.upd v.vid b := by
    intro a b
    funext k
    by_cases h : k = v.vid
    · subst h; rw [upd_self, upd_self]
    · rw [upd_ne _ _ h, upd_ne _ _ h, upd_ne _ _ h]
  unfold Mgr.expireGw
  rw [hdel]
  cases hr : (st v.vid).routes.get? (hostNet m.width gw) with
  | none =>
    simp only [ite_self, after_nil]
    -- only the cache entry goes
    have hroutes : ∀ k, ((st.upd v.vid ((st v.vid).delHop gw)) k).routes = (st k).routes := by
      intro k
      by_cases h : k = v.vid
      · subst h; rw [upd_self]; rfl
      · rw [upd_ne _ _ h]
    have heth : ∀ u ∈ vs, ∀ g, ((st.upd v.vid ((st v.vid).delHop gw)) u.vid).eth g = (st u.vid).eth g ∨
        (((st.upd v.vid ((st v.vid).delHop gw)) u.vid).eth g = none ∧ u = v ∧ g = gw) := by
      intro u hu g
      by_cases h : u.vid = v.vid
      · have huv := hc.distinct u hu v hv h
        subst huv
        rw [upd_self, hethdel]
        by_cases hg : g = gw
        · rw [if_pos hg]; exact Or.inr ⟨rfl, rfl, hg⟩
        · rw [if_neg hg]; exact Or.inl rfl
      · rw [upd_ne _ _ h]; exact Or.inl rfl
    refine ⟨?_, ?_, ?_, ?_, ?_, ?_, ?_, ?_, ?_, hi.outside⟩
    · intro u hu g d
      rw [hroutes]
      have : ((st.upd v.vid ((st v.vid).delHop gw)) u.vid).dsts g = (st u.vid).dsts g := by
        by_cases h : u.vid = v.vid
        · rw [h, upd_self]; rfl
        · rw [upd_ne _ _ h]
      rw [this]; exact hi.idx u hu g d
    · intro u hu w hw rv d; rw [hroutes, hroutes]; exact hi.uniq u hu w hw rv d
    · intro u hu g x h
      by_cases hk : u.vid = v.vid
      · rw [hk, upd_self, hcacheget] at h
        split at h
        · cases h
        · exact hi.pair u hu g x (hk ▸ h)
      · rw [upd_ne _ _ hk] at h; exact hi.pair u hu g x h
    · intro u hu d g mac rv
      rw [hroutes]
      intro h1 h2 h3
      rcases heth u hu g with he | ⟨he, _⟩
      · rw [he] at h2; exact hi.full u hu d g mac rv h1 h2 h3
      · rw [he] at h2; cases h2
    · intro rv d b h1 h2 h3
      obtain ⟨u, hu, h4, h5, h6⟩ := hi.owned rv d b h1 h2 h3
      exact ⟨u, hu, h4, by rw [hroutes]; exact h5, h6⟩
    · intro u hu ip rv b
      rw [hroutes]
      intro h1 h2 h3 h4
      rcases heth u hu ip with he | ⟨_, rfl, rfl⟩
      · rw [he] at h2; exact hi.bare u hu ip rv b h1 h2 h3 h4
      · rw [hr] at h1; cases h1
    · intro u hu ip g; rw [hroutes]; exact hi.conn u hu ip g
    · intro u hu g
      rw [hroutes]
      intro h
      refine hi.conn2 u hu g ?_
      by_cases hk : u.vid = v.vid
      · rw [hk, upd_self] at h; rw [hk]; exact h
      · rw [upd_ne _ _ hk] at h; exact h
    · intro u hu d; rw [hroutes]; exact hi.allowed u hu d
  | some g0 =>
    simp only
    rw [hupd2]
    refine inv_drop hc hi hv (hostNet m.width gw) g0 hr _ ?_ ?_ ?_ ?_ ?_ ?_ _ ?_ ?_ ?_
    · intro d
      rw [updateGwTypes_routes]
      have : (((st v.vid).delHop gw).unsetRoute (hostNet m.width gw) g0).routes = (st v.vid).routes.del (hostNet m.width gw) := rfl
      rw [this, Dict.get?_del]
      by_cases hd : d = hostNet m.width gw
      · subst hd; simp
      · simp [hd, Ne.symm hd]
    · intro g
      rw [updateGwTypes_dsts, dsts_unsetRoute]
      rfl
    · intro g
      have : ((((st v.vid).delHop gw).unsetRoute (hostNet m.width gw) g0).updateGwTypes m.width g0).eth g =
          ((st v.vid).delHop gw).eth g := by
        unfold VState.eth; rw [updateGwTypes_cache]; rfl
      rw [this, hethdel]
      by_cases hg : g = gw
      · subst hg; rw [if_pos rfl]; exact Or.inr ⟨rfl, rfl⟩
      · rw [if_neg hg]; exact Or.inl rfl
    · intro g x
      rw [updateGwTypes_cache]
      have : (((st v.vid).delHop gw).unsetRoute (hostNet m.width gw) g0).cache = ((st v.vid).delHop gw).cache := rfl
      rw [this, hcacheget]
      intro h
      split at h
      · cases h
      · exact hi.pair v hv g x h
    · intro g hg; rw [mem_hostGws_update, if_neg hg]; exact id
    · rw [updateGwTypes_unresHost]; rfl
    · intro t ht
      split
      · rfl
      · exact (cuts_after hc v _ F t).2 ht
    · intro t b ht hb
      split at hb
      · rename_i hp
        rcases hn with hn | ⟨he, hvm⟩
        · exact absurd hp hn
        · obtain ⟨rv, hrv, rfl⟩ := ht
          rcases hi.conn v hv gw g0 hr with rfl | hno
          · exact hi.bare v hv g0 rv b hr he hrv hb
          · rw [hno v hv] at hvm; cases hvm
      · rw [(cuts_after hc v _ F t).1 ht] at hb; cases hb
    · intro t _ hne
      by_contra ht
      apply hne
      split
      · rfl
      · exact (cuts_after hc v _ F t).2 ht

/-- One more attempt keeps the MAC and the port. -/
theorem inv_retry (hi : Inv m vs P F0 st F) {v : Vlan} (hv : v ∈ vs) (gw : Nat) (n n' : NextHop)
    (hn : (st v.vid).cache.get? gw = some n) (he : n'.eth = n.eth) (hp : n'.port = n.port) :
    Inv m vs P F0 (st.upd v.vid ((st v.vid).setHop gw n')) F := by
  refine inv_hop hi v _ rfl rfl rfl ?_ ?_ (fun g h => Or.inl h)
  · intro g
    unfold VState.eth VState.setHop
    simp only
    rw [Dict.get?_set]
    by_cases h : gw = g
    · subst h; rw [if_pos rfl, hn]; simp [he]
    · rw [if_neg h]
  · intro g x
    unfold VState.setHop
    simp only
    rw [Dict.get?_set]
    by_cases h : gw = g
    · rw [if_pos h]
      intro hx
      injection hx with hx
      subst hx
      rw [he, hp]
      exact hi.pair v hv gw n hn
    · rw [if_neg h]; exact hi.pair v hv g x

theorem inv_resolveGw (hi : Inv m vs P F0 st F) {v : Vlan} (hv : v ∈ vs) (e : Env) (now : Int) (gw : Nat) (n : NextHop)
    (hn : (st v.vid).cache.get? gw = some n) :
    Inv m vs P F0 (m.resolveGw e st now v gw n).1 (after (m.resolveGw e st now v gw n).2 F) := by
  unfold Mgr.resolveGw
  split
  · have : after (Mgr.asks e v gw n) F = F := by
      funext s; unfold after; rw [flowMods_asks]; rfl
    simp only
    rw [this]
    exact inv_retry hi hv gw n _ hn rfl rfl
  · exact hi

theorem inv_handler (hc : ConfOk m vs) (hi : Inv m vs P F0 st F) {v : Vlan} (hv : v ∈ vs) (hosts : Bool) (e : Env) (now : Int)
    (gw : Nat) (n : NextHop) (hn : (st v.vid).cache.get? gw = some n) (hvm : hosts = true → (v.vipMap m.width gw).isSome) :
    Inv m vs P F0 (m.handler hosts e st now v gw n).1 (after (m.handler hosts e st now v gw n).2 F) := by
  unfold Mgr.handler
  cases hosts
  · exact inv_resolveGw hi hv e now gw n hn
  · simp only [if_true, Mgr.resolveExpire]
    split
    · refine inv_expire hc hi hv gw n ?_
      by_cases hp : n.port = none
      · right
        refine ⟨?_, hvm rfl⟩
        unfold VState.eth
        rw [hn]
        exact (hi.pair v hv gw n hn).2 hp
      · exact Or.inl hp
    · exact inv_resolveGw hi hv e now gw n hn

theorem inv_loop (hc : ConfOk m vs) {v : Vlan} (hv : v ∈ vs) (hosts : Bool) (e : Env) (now : Int) (gws : List Nat) (r : Int)
    (hg : hosts = true → ∀ gw ∈ gws, (v.vipMap m.width gw).isSome) : ∀ {st F}, Inv m vs P F0 st F →
    Inv m vs P F0 (m.resolveLoop e hosts now v gws r st).1 (after (m.resolveLoop e hosts now v gws r st).2 F) := by
  induction gws generalizing r with
  | nil => intro st F hi; exact hi
  | cons gw gws ih =>
    intro st F hi
    have hg' : hosts = true → ∀ gw ∈ gws, (v.vipMap m.width gw).isSome := fun h x hx => hg h x (List.mem_cons_of_mem _ hx)
    rcases loop_cons m e hosts now v gw gws r st with ⟨_, hq⟩ | ⟨_, _, hq⟩ | ⟨n, r', st', ms, _, hcn, _, hh, _, hq⟩
    · rw [hq]; exact hi
    · rw [hq]; exact ih r hg' hi
    · rw [hq]
      simp only
      rw [after_append]
      have := inv_handler hc hi hv hosts e now gw n hcn (fun h => hg h gw (by simp))
      rw [hh] at this
      exact ih r' hg' this

theorem touch_eth (now : Int) (s : VState) (gws : List Nat) (g : Nat) : (gws.foldl (VState.touch now) s).eth g = s.eth g := by
  unfold VState.eth
  cases hc : (gws.foldl (VState.touch now) s).cache.get? g with
  | none =>
    cases hs : s.cache.get? g with
    | none => rfl
    | some n => rw [touch_get now s gws g n hs] at hc; cases hc
  | some n =>
    rcases touch_new now s gws g n hc with h | ⟨h, hn⟩
    · rw [h]
    · rw [h, hn]; rfl

theorem touch_same (now : Int) (s : VState) (gws : List Nat) : (gws.foldl (VState.touch now) s).routes = s.routes ∧
    (gws.foldl (VState.touch now) s).gws = s.gws ∧ (gws.foldl (VState.touch now) s).hostGws = s.hostGws ∧
    (gws.foldl (VState.touch now) s).unresHost = s.unresHost := by
  induction gws generalizing s with
  | nil => exact ⟨rfl, rfl, rfl, rfl⟩
  | cons a l ih =>
    rw [List.foldl_cons]
    have h : (VState.touch now s a).routes = s.routes ∧ (VState.touch now s a).gws = s.gws ∧
        (VState.touch now s a).hostGws = s.hostGws ∧ (VState.touch now s a).unresHost = s.unresHost := by
      unfold VState.touch
      split
      · exact ⟨rfl, rfl, rfl, rfl⟩
      · exact ⟨rfl, rfl, rfl, rfl⟩
    obtain ⟨h1, h2, h3, h4⟩ := ih (VState.touch now s a)
    exact ⟨h1.trans h.1, h2.trans h.2.1, h3.trans h.2.2.1, h4.trans h.2.2.2⟩

theorem pick_mem {e : Env} (hsh : ∀ l, (e.shuffle l).Perm l) {s : VState} {hosts all : Bool} {now : Int} {g : Nat}
    (h : g ∈ (m.pick e s hosts all now).2) : g ∈ s.gwsOf hosts ∨ g ∈ s.unres hosts := by
  unfold Mgr.pick at h
  split at h
  · left
    unfold Mgr.unresolved at h
    rw [mem_groups hsh] at h
    exact (List.mem_filter.1 h.1).1
  · right
    split at h
    · cases h
    · rename_i gw rest hu
      rw [hu]
      simp at h
      simp [h]

theorem inv_pick (hi : Inv m vs P F0 st F) {v : Vlan} (hv : v ∈ vs) {e : Env} (hsh : ∀ l, (e.shuffle l).Perm l) (hosts all : Bool)
    (now : Int) : Inv m vs P F0 (st.upd v.vid (m.pick e (st v.vid) hosts all now).1) F := by
  have hcache : ∀ g n, (m.pick e (st v.vid) hosts all now).1.cache.get? g = some n → (n.eth = none ↔ n.port = none) := by
    intro g n h
    unfold Mgr.pick at h
    split at h
    · rw [setUnres_cache] at h
      rcases touch_new now _ _ g n h with h | ⟨_, rfl⟩
      · exact hi.pair v hv g n h
      · exact ⟨fun _ => rfl, fun _ => rfl⟩
    · split at h
      · exact hi.pair v hv g n h
      · rw [setUnres_cache] at h; exact hi.pair v hv g n h
  have hun : ∀ gw ∈ (m.pick e (st v.vid) hosts all now).1.unresHost, gw ∈ (st v.vid).unresHost ∨ gw ∈ (st v.vid).hostGws := by
    intro g h
    unfold Mgr.pick at h
    split at h
    · unfold VState.setUnres Mgr.unresolved at h
      cases hosts
      · simp only [Bool.false_eq_true, if_false] at h
        rw [(touch_same now _ _).2.2.2] at h
        exact Or.inl h
      · simp only [if_true] at h
        rw [mem_groups hsh] at h
        exact Or.inr (List.mem_filter.1 h.1).1
    · split at h
      · exact Or.inl h
      · rename_i gw rest hu
        unfold VState.setUnres at h
        unfold VState.unres at hu
        cases hosts
        · simp only [Bool.false_eq_true, if_false] at h
          exact Or.inl h
        · simp only [if_true] at h hu
          left; rw [hu]; exact List.mem_cons_of_mem _ h
  have hrest : (m.pick e (st v.vid) hosts all now).1.routes = (st v.vid).routes ∧
      (m.pick e (st v.vid) hosts all now).1.gws = (st v.vid).gws ∧
      (m.pick e (st v.vid) hosts all now).1.hostGws = (st v.vid).hostGws ∧
      (∀ g, (m.pick e (st v.vid) hosts all now).1.eth g = (st v.vid).eth g) := by
    have hs : ∀ (s : VState) l, (s.setUnres hosts l).routes = s.routes ∧ (s.setUnres hosts l).gws = s.gws ∧
        (s.setUnres hosts l).hostGws = s.hostGws ∧ (∀ g, (s.setUnres hosts l).eth g = s.eth g) := by
      intro s l
      unfold VState.setUnres
      split <;> exact ⟨rfl, rfl, rfl, fun _ => rfl⟩
    unfold Mgr.pick
    split
    · obtain ⟨h1, h2, h3, h4⟩ := hs (m.unresolved e (st v.vid) now ((st v.vid).gwsOf hosts)).1
        (m.unresolved e (st v.vid) now ((st v.vid).gwsOf hosts)).2
      obtain ⟨t1, t2, t3, _⟩ := touch_same now (st v.vid) (m.notFresh (st v.vid) now ((st v.vid).gwsOf hosts))
      refine ⟨h1.trans t1, h2.trans t2, h3.trans t3, fun g => (h4 g).trans ?_⟩
      exact touch_eth now _ _ g
    · split
      · exact ⟨rfl, rfl, rfl, fun _ => rfl⟩
      · exact hs _ _
  exact inv_hop hi v _ hrest.1 hrest.2.1 hrest.2.2.1 hrest.2.2.2 hcache hun

theorem inv_resolve (hc : ConfOk m vs) (hi : Inv m vs P F0 st F) {v : Vlan} (hv : v ∈ vs) {e : Env}
    (hsh : ∀ l, (e.shuffle l).Perm l) (hosts all : Bool) (now : Int) :
    Inv m vs P F0 (m.resolve e st hosts all now v).1 (after (m.resolve e st hosts all now v).2 F) := by
  unfold Mgr.resolve
  refine inv_loop hc hv hosts e now _ _ ?_ (inv_pick hi hv hsh hosts all now)
  intro hh gw hg
  subst hh
  rcases pick_mem hsh hg with h | h
  · exact hi.conn2 v hv gw (Or.inr (Or.inl h))
  · exact hi.conn2 v hv gw (Or.inr (Or.inr h))

/-- A host that is routed via itself gets a black hole, and its MAC is forgotten. -/
theorem inv_hole (hc : ConfOk m vs) (hi : Inv m vs P F0 st F) {v : Vlan} (hv : v ∈ vs) (ip hard : Nat) (n : NextHop)
    (hne : n.eth = none) (hnp : n.port = none)
    (hr : (st v.vid).routes.get? (hostNet m.width ip) = some ip) :
    Inv m vs P F0 (st.upd v.vid ((st v.vid).setHop ip n)) (after ((m.blackhole v ip hard).map .of) F) := by
  have hroutes : ∀ k, ((st.upd v.vid ((st v.vid).setHop ip n)) k).routes = (st k).routes := by
    intro k
    by_cases h : k = v.vid
    · subst h; rw [upd_self]; rfl
    · rw [upd_ne _ _ h]
  have heth : ∀ u ∈ vs, ∀ g, ((st.upd v.vid ((st v.vid).setHop ip n)) u.vid).eth g =
      if u = v ∧ g = ip then none else (st u.vid).eth g := by
    intro u hu g
    by_cases h : u.vid = v.vid
    · have huv := hc.distinct u hu v hv h
      subst huv
      rw [upd_self]
      unfold VState.eth VState.setHop
      simp only
      rw [Dict.get?_set]
      by_cases hg : ip = g
      · subst hg; simp [hne]
      · rw [if_neg hg, if_neg (by rintro ⟨_, h⟩; exact hg h.symm)]
    · rw [upd_ne _ _ h, if_neg (by rintro ⟨h', _⟩; exact h (by rw [h']))]
  have hF1 : ∀ t, m.At v (hostNet m.width ip) t → after ((m.blackhole v ip hard).map .of) F t = some (m.holeBody hard) := by
    intro t ht
    unfold after
    rw [flowMods_of, blackhole_eq]
    exact (slotAfter_puts_map _ _ _ t _).1 (at_iff.2 ht)
  have hF2 : ∀ t, ¬ m.At v (hostNet m.width ip) t → after ((m.blackhole v ip hard).map .of) F t = F t := by
    intro t ht
    unfold after
    rw [flowMods_of, blackhole_eq]
    exact (slotAfter_puts_map _ _ _ t _).2 (fun hh => ht (at_iff.1 hh))
  have hother : ∀ u ∈ vs, ∀ rv d, rv ∈ m.routed u → (st u.vid).routes.get? d ≠ none → ¬ (u = v ∧ d = hostNet m.width ip) →
      ¬ m.At v (hostNet m.width ip) (m.slot rv d) := by
    rintro u hu rv d h1 h2 h3 ⟨rv', h4, hs⟩
    obtain ⟨rfl, rfl⟩ := slot_ne hc hv hu h4 h1 hs
    exact h3 ⟨hi.uniq u hu v hv rv' _ h1 h4 h2 (by rw [hr]; simp), rfl⟩
  refine ⟨?_, ?_, ?_, ?_, ?_, ?_, ?_, ?_, ?_, ?_⟩
  · intro u hu g d
    rw [hroutes]
    have : ((st.upd v.vid ((st v.vid).setHop ip n)) u.vid).dsts g = (st u.vid).dsts g := by
      by_cases h : u.vid = v.vid
      · rw [h, upd_self]; rfl
      · rw [upd_ne _ _ h]
    rw [this]; exact hi.idx u hu g d
  · intro u hu w hw rv d; rw [hroutes, hroutes]; exact hi.uniq u hu w hw rv d
  · intro u hu g x h
    by_cases hk : u.vid = v.vid
    · rw [hk, upd_self] at h
      unfold VState.setHop at h
      simp only at h
      rw [Dict.get?_set] at h
      split at h
      · injection h with h; subst h; simp [hne, hnp]
      · exact hi.pair u hu g x (hk ▸ h)
    · rw [upd_ne _ _ hk] at h; exact hi.pair u hu g x h
  · intro u hu d g mac rv
    rw [hroutes, heth u hu]
    intro h1 h2 h3
    by_cases hug : u = v ∧ g = ip
    · rw [if_pos hug] at h2; cases h2
    · rw [if_neg hug] at h2
      rw [hF2]
      · exact hi.full u hu d g mac rv h1 h2 h3
      · refine hother u hu rv d h3 (by rw [h1]; simp) ?_
        rintro ⟨rfl, rfl⟩
        rw [hr] at h1
        injection h1 with h1
        exact hug ⟨rfl, h1.symm⟩
  · intro rv d b h1 h2 h3
    by_cases hs : m.At v (hostNet m.width ip) (m.slot rv d)
    · rw [hF1 _ hs] at h2
      injection h2 with h2
      subst h2
      exact absurd h3 (not_forwards_hole m hard)
    · rw [hF2 _ hs] at h2
      obtain ⟨u, hu, h4, h5, h6⟩ := hi.owned rv d b h1 h2 h3
      exact ⟨u, hu, h4, by rw [hroutes]; exact h5, h6⟩
  · intro u hu ip' rv b
    rw [hroutes, heth u hu]
    intro h1 h2 h3 h4
    by_cases hs : m.At v (hostNet m.width ip) (m.slot rv (hostNet m.width ip'))
    · rw [hF1 _ hs] at h4
      injection h4 with h4
      subst h4
      exact not_forwards_hole m hard
    · rw [hF2 _ hs] at h4
      by_cases hug : u = v ∧ ip' = ip
      · obtain ⟨rfl, rfl⟩ := hug
        exact absurd ⟨rv, h3, rfl⟩ hs
      · rw [if_neg hug] at h2
        exact hi.bare u hu ip' rv b h1 h2 h3 h4
  · intro u hu ip' g; rw [hroutes]; exact hi.conn u hu ip' g
  · intro u hu g
    rw [hroutes]
    intro h
    refine hi.conn2 u hu g ?_
    by_cases hk : u.vid = v.vid
    · rw [hk, upd_self] at h; rw [hk]; exact h
    · rw [upd_ne _ _ hk] at h; exact h
  · intro u hu d; rw [hroutes]; exact hi.allowed u hu d
  · intro t ht hP
    rw [hF2]
    · exact hi.outside t ht hP
    · rintro ⟨rv, _, rfl⟩
      exact hP ⟨rv, _, hi.allowed v hv _ (by rw [hr]; simp), rfl⟩

end

end Faucet.Route
