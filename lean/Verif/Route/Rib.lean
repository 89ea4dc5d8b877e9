import Verif.Route.Model

/-!
# C17: the route table of a VLAN and its index of gateways
-/

namespace Faucet.Route
open Faucet

/-! ## Specification -/

/-- What a user of a VLAN's route table does. Callers delete only routes that exist (`faucet/valve_route.py` 973). -/
inductive RibOp where
  | add (dst : Net) (gw : Nat)
  | del (dst : Net)

/-- The gateway of a prefix after a history, newest operation first: the one it was last added with, unless deleted
since. -/
def gwAfter (dst : Net) : List RibOp → Option Nat
  | [] => none
  | .add d gw :: ops => if d = dst then some gw else gwAfter dst ops
  | .del d :: ops => if d = dst then none else gwAfter dst ops

/-- No operation gives a routed prefix another gateway (newest operation first). -/
def Steady : List RibOp → Prop
  | [] => True
  | .add d gw :: ops => Steady ops ∧ (gwAfter d ops = none ∨ gwAfter d ops = some gw)
  | .del _ :: ops => Steady ops

/-! ## The code -/

/-- One operation; deletion of a prefix that is not routed is not attempted. -/
def ribStep (w : Nat) (s : VState) : RibOp → Option VState
  | .add dst gw => some (s.addRoute w dst gw)
  | .del dst => if s.routes.has dst then s.delRoute w dst else some s

/-- The table after a history, newest operation first; `none` is an exception. -/
def ribRun (w : Nat) : List RibOp → Option VState
  | [] => some {}
  | op :: ops => (ribRun w ops).bind (fun s => ribStep w s op)

/-! ## Lemmas -/

theorem mem_setAdd {α : Type} [DecidableEq α] {l : List α} {a x : α} : x ∈ setAdd l a ↔ x = a ∨ x ∈ l := by
  unfold setAdd
  split
  · constructor
    · exact Or.inr
    · rintro (rfl | h)
      · assumption
      · exact h
  · simp [or_comm]

theorem mem_setDel {α : Type} [DecidableEq α] {l : List α} {a x : α} : x ∈ setDel l a ↔ x ∈ l ∧ x ≠ a := by
  unfold setDel
  simp

theorem nodup_setAdd {α : Type} [DecidableEq α] {l : List α} {a : α} (h : l.Nodup) : (setAdd l a).Nodup := by
  unfold setAdd
  split
  · exact h
  · rename_i hn
    rw [List.nodup_append]
    refine ⟨h, by simp, ?_⟩
    intro x hx y hy
    simp at hy
    subst hy
    intro hxy
    subst hxy
    exact hn hx

theorem nodup_setDel {α : Type} [DecidableEq α] {l : List α} {a : α} (h : l.Nodup) : (setDel l a).Nodup :=
  List.Pairwise.filter _ h

@[simp] theorem updateGwTypes_routes (w : Nat) (s : VState) (gw : Nat) : (s.updateGwTypes w gw).routes = s.routes := by
  unfold VState.updateGwTypes; split <;> rfl
@[simp] theorem updateGwTypes_gws (w : Nat) (s : VState) (gw : Nat) : (s.updateGwTypes w gw).gws = s.gws := by
  unfold VState.updateGwTypes; split <;> rfl
@[simp] theorem updateGwTypes_cache (w : Nat) (s : VState) (gw : Nat) : (s.updateGwTypes w gw).cache = s.cache := by
  unfold VState.updateGwTypes; split <;> rfl
@[simp] theorem updateGwTypes_unresHost (w : Nat) (s : VState) (gw : Nat) : (s.updateGwTypes w gw).unresHost = s.unresHost := by
  unfold VState.updateGwTypes; split <;> rfl
@[simp] theorem updateGwTypes_dsts (w : Nat) (s : VState) (gw g : Nat) : (s.updateGwTypes w gw).dsts g = s.dsts g := by
  unfold VState.dsts; rw [updateGwTypes_gws]

theorem mem_hostGws_update {w : Nat} {s : VState} {gw x : Nat} : x ∈ (s.updateGwTypes w gw).hostGws ↔
    if x = gw then s.isHostRoute w gw = true else x ∈ s.hostGws := by
  unfold VState.updateGwTypes
  by_cases h : s.isHostRoute w gw = true
  · rw [if_pos h]
    simp only [mem_setAdd]
    split <;> simp_all
  · rw [if_neg h]
    simp only [mem_setDel]
    split <;> simp_all

theorem mem_routeGws_update {w : Nat} {s : VState} {gw x : Nat} : x ∈ (s.updateGwTypes w gw).routeGws ↔
    if x = gw then s.isHostRoute w gw = false else x ∈ s.routeGws := by
  unfold VState.updateGwTypes
  by_cases h : s.isHostRoute w gw = true
  · rw [if_pos h]
    simp only [mem_setDel]
    split <;> simp_all
  · rw [if_neg h]
    simp only [mem_setAdd]
    split <;> simp_all

theorem dsts_setRoute (s : VState) (dst : Net) (gw g : Nat) :
    (s.setRoute dst gw).dsts g = if g = gw then setAdd (s.dsts gw) dst else s.dsts g := by
  unfold VState.setRoute VState.dsts
  simp only [Dict.get?_set]
  by_cases h : g = gw
  · subst h; simp
  · rw [if_neg (Ne.symm h), if_neg h]

theorem dsts_unsetRoute (s : VState) (dst : Net) (gw g : Nat) :
    (s.unsetRoute dst gw).dsts g = if g = gw then setDel (s.dsts gw) dst else s.dsts g := by
  have key : ∀ gws', gws' = (if setDel (s.dsts gw) dst = [] then s.gws.del gw else s.gws.set gw (setDel (s.dsts gw) dst)) →
      (Dict.get? gws' g).getD [] = if g = gw then setDel (s.dsts gw) dst else s.dsts g := by
    intro gws' h
    subst h
    by_cases he : setDel (s.dsts gw) dst = []
    · rw [if_pos he, he, Dict.get?_del]
      by_cases h : g = gw
      · subst h; simp
      · rw [if_neg h]
        by_cases h2 : gw = g
        · exact absurd h2.symm h
        · simp [VState.dsts, h, h2]
    · rw [if_neg he, Dict.get?_set]
      by_cases h : g = gw
      · subst h; simp
      · rw [if_neg (Ne.symm h), if_neg h]; rfl
  exact key _ rfl

theorem routes_addRoute (w : Nat) (s : VState) (dst : Net) (gw : Nat) : (s.addRoute w dst gw).routes = s.routes.set dst gw := by
  unfold VState.addRoute; rw [updateGwTypes_routes]; rfl

theorem dsts_addRoute (w : Nat) (s : VState) (dst : Net) (gw g : Nat) :
    (s.addRoute w dst gw).dsts g = if g = gw then setAdd (s.dsts gw) dst else s.dsts g := by
  unfold VState.addRoute; rw [updateGwTypes_dsts, dsts_setRoute]

theorem delRoute_some {w : Nat} {s s' : VState} {dst : Net} (h : s.delRoute w dst = some s') :
    ∃ gw, s.routes.get? dst = some gw ∧ s' = (s.unsetRoute dst gw).updateGwTypes w gw := by
  unfold VState.delRoute at h
  cases hg : s.routes.get? dst with
  | none => rw [hg] at h; cases h
  | some gw =>
    rw [hg] at h
    simp only at h
    split at h
    · injection h with h; exact ⟨gw, rfl, h.symm⟩
    · cases h

/-- Every routed prefix is behind its gateway, each gateway's prefixes are without duplicates. -/
structure RibOk (w : Nat) (s : VState) : Prop where
  behind : ∀ dst gw, s.routes.get? dst = some gw → dst ∈ s.dsts gw
  nodup : ∀ gw, (s.dsts gw).Nodup
  host : ∀ gw, gw ∈ s.hostGws ↔ s.isHostRoute w gw = true
  notBoth : ∀ gw, gw ∈ s.hostGws → gw ∉ s.routeGws
  some : ∀ gw, s.dsts gw ≠ [] → gw ∈ s.hostGws ∨ gw ∈ s.routeGws

theorem isHostRoute_congr {w : Nat} {s t : VState} {gw : Nat} (h : s.dsts gw = t.dsts gw) :
    s.isHostRoute w gw = t.isHostRoute w gw := by
  unfold VState.isHostRoute; rw [h]

theorem ribOk_update {w : Nat} {s t : VState} {gw : Nat} (hb : ∀ dst g, t.routes.get? dst = some g → dst ∈ t.dsts g)
    (hn : ∀ g, (t.dsts g).Nodup) (hg : ∀ g, g ≠ gw → t.dsts g = s.dsts g)
    (h1 : t.hostGws = s.hostGws) (h2 : t.routeGws = s.routeGws) (hs : RibOk w s) : RibOk w (t.updateGwTypes w gw) := by
  refine ⟨?_, ?_, ?_, ?_, ?_⟩
  · intro dst g h
    rw [updateGwTypes_routes] at h
    rw [updateGwTypes_dsts]
    exact hb dst g h
  · intro g; rw [updateGwTypes_dsts]; exact hn g
  · intro g
    rw [mem_hostGws_update, isHostRoute_congr (updateGwTypes_dsts w t gw g)]
    by_cases h : g = gw
    · rw [if_pos h, h]
    · rw [if_neg h, h1, hs.host, isHostRoute_congr (hg g h)]
  · intro g
    rw [mem_hostGws_update, mem_routeGws_update]
    by_cases h : g = gw
    · rw [if_pos h, if_pos h]; intro h1; simp [h1]
    · rw [if_neg h, if_neg h, h1, h2]; exact hs.notBoth g
  · intro g
    rw [updateGwTypes_dsts, mem_hostGws_update, mem_routeGws_update]
    by_cases h : g = gw
    · rw [if_pos h, if_pos h]; intro _; cases t.isHostRoute w gw <;> simp
    · rw [if_neg h, if_neg h, h1, h2, hg g h]; exact hs.some g

theorem ribOk_add {w : Nat} {s : VState} (hs : RibOk w s) (dst : Net) (gw : Nat) : RibOk w (s.addRoute w dst gw) := by
  refine ribOk_update (s := s) ?_ ?_ ?_ rfl rfl hs
  · intro d g h
    have hr : (s.setRoute dst gw).routes = s.routes.set dst gw := rfl
    rw [hr, Dict.get?_set] at h
    rw [dsts_setRoute]
    by_cases hd : dst = d
    · rw [if_pos hd] at h
      injection h with h
      rw [if_pos h.symm, mem_setAdd]
      exact Or.inl hd.symm
    · rw [if_neg hd] at h
      have := hs.behind d g h
      by_cases hg : g = gw
      · rw [if_pos hg, mem_setAdd]; exact Or.inr (hg ▸ this)
      · rw [if_neg hg]; exact this
  · intro g
    rw [dsts_setRoute]
    split
    · exact nodup_setAdd (hs.nodup gw)
    · exact hs.nodup g
  · intro g hg
    rw [dsts_setRoute, if_neg hg]

theorem ribOk_del {w : Nat} {s s' : VState} (hs : RibOk w s) (dst : Net) (h : s.delRoute w dst = some s') : RibOk w s' := by
  obtain ⟨gw, hgw, rfl⟩ := delRoute_some h
  refine ribOk_update (s := s) ?_ ?_ ?_ rfl rfl hs
  · intro d g h
    have hr : (s.unsetRoute dst gw).routes = s.routes.del dst := rfl
    rw [hr, Dict.get?_del] at h
    rw [dsts_unsetRoute]
    by_cases hd : dst = d
    · subst hd; simp at h
    · have h' : s.routes.get? d = some g := by
        by_cases h2 : d = dst
        · exact absurd h2.symm hd
        · simpa [h2, hd] using h
      have := hs.behind d g h'
      by_cases hg : g = gw
      · rw [if_pos hg, mem_setDel]; exact ⟨hg ▸ this, Ne.symm hd⟩
      · rw [if_neg hg]; exact this
  · intro g
    rw [dsts_unsetRoute]
    split
    · exact nodup_setDel (hs.nodup gw)
    · exact hs.nodup g
  · intro g hg
    rw [dsts_unsetRoute, if_neg hg]

theorem ribOk_init (w : Nat) : RibOk w {} :=
  ⟨fun _ _ h => (by cases h), fun _ => (by simp [VState.dsts]), fun _ => (by simp [VState.isHostRoute, VState.dsts]),
    fun _ h => (by cases h), fun _ h => absurd rfl h⟩

theorem rib_run (w : Nat) (ops : List RibOp) : ∃ s, ribRun w ops = some s ∧ RibOk w s ∧
    (∀ dst, s.routes.get? dst = gwAfter dst ops) ∧
    (Steady ops → ∀ dst gw, dst ∈ s.dsts gw → gwAfter dst ops = some gw) := by
  induction ops with
  | nil => exact ⟨{}, rfl, ribOk_init w, fun _ => rfl, fun _ _ _ h => by simp [VState.dsts] at h⟩
  | cons op ops ih =>
    obtain ⟨s, hr, hok, hroutes, hst⟩ := ih
    cases op with
    | add d gw =>
      refine ⟨s.addRoute w d gw, by simp [ribRun, hr, ribStep], ribOk_add hok d gw, ?_, ?_⟩
      · intro dst
        rw [routes_addRoute, Dict.get?_set]
        simp only [gwAfter]
        split
        · rfl
        · exact hroutes dst
      · rintro ⟨h1, h2⟩ dst g hm
        rw [dsts_addRoute] at hm
        simp only [gwAfter]
        by_cases hg : g = gw
        · rw [if_pos hg, mem_setAdd] at hm
          rcases hm with rfl | hm
          · rw [if_pos rfl, hg]
          · have := hst h1 dst gw hm
            split
            · rw [hg]
            · rw [hg]; exact this
        · rw [if_neg hg] at hm
          have := hst h1 dst g hm
          by_cases hd : d = dst
          · subst hd
            rw [this] at h2
            rcases h2 with h2 | h2
            · cases h2
            · injection h2 with h2; exact absurd h2 hg
          · rw [if_neg hd]; exact this
    | del d =>
      by_cases hh : s.routes.has d = true
      · cases hg : s.routes.get? d with
        | none => simp [Dict.has, hg] at hh
        | some gw =>
          have hd : s.delRoute w d = some ((s.unsetRoute d gw).updateGwTypes w gw) := by
            unfold VState.delRoute
            rw [hg]
            simp only
            rw [if_pos (hok.behind d gw hg)]
          refine ⟨_, by simp [ribRun, hr, ribStep, hh, hd], ribOk_del hok d hd, ?_, ?_⟩
          · intro dst
            rw [updateGwTypes_routes]
            have hr : (s.unsetRoute d gw).routes = s.routes.del d := rfl
            rw [hr, Dict.get?_del]
            simp only [gwAfter]
            by_cases h : dst = d
            · subst h; simp
            · rw [if_neg (Ne.symm h)]
              simp [h, Ne.symm h, hroutes dst]
          · intro h1 dst g hm
            rw [updateGwTypes_dsts, dsts_unsetRoute] at hm
            simp only [gwAfter]
            by_cases h : d = dst
            · subst h
              exfalso
              by_cases hgw : g = gw
              · rw [if_pos hgw, mem_setDel] at hm; exact hm.2 rfl
              · rw [if_neg hgw] at hm
                have := hst h1 d g hm
                rw [← hroutes, hg] at this
                injection this with this
                exact hgw this.symm
            · rw [if_neg h]
              by_cases hgw : g = gw
              · rw [if_pos hgw, mem_setDel] at hm; exact hgw ▸ hst h1 dst gw hm.1
              · rw [if_neg hgw] at hm; exact hst h1 dst g hm
      · have hn : s.routes.get? d = none := by
          cases hg : s.routes.get? d with
          | none => rfl
          | some x => simp [Dict.has, hg] at hh
        refine ⟨s, by simp [ribRun, hr, ribStep, hh], hok, ?_, ?_⟩
        · intro dst
          simp only [gwAfter]
          split
          · rename_i h; subst h; exact hn
          · exact hroutes dst
        · intro h1 dst g hm
          simp only [gwAfter]
          have := hst h1 dst g hm
          split
          · rename_i h; subst h; rw [← hroutes, hn] at this; exact this
          · exact this

/-! ## Properties -/

/-- The only route via the address is its own host route. -/
def OnlyHostRoute (w : Nat) (ip : Nat) (ops : List RibOp) : Prop :=
  ∀ dst, gwAfter dst ops = some ip ↔ dst = ⟨ip, w⟩

/-- C17. After any history no deletion has failed, and a prefix has the gateway it was last added with and is recorded
behind it. If no routed prefix was given another gateway, then the prefixes recorded behind a gateway are exactly
those routed via it; the gateway is a host iff its only route is its own host route; every other gateway with routes is a
route gateway; and none is both. -/
theorem gateway_index_partial (w : Nat) (ops : List RibOp) : ∃ s, ribRun w ops = some s ∧
    (∀ dst, s.routes.get? dst = gwAfter dst ops) ∧
    (∀ dst gw, gwAfter dst ops = some gw → dst ∈ s.dsts gw) ∧
    (Steady ops →
      (∀ dst gw, dst ∈ s.dsts gw ↔ gwAfter dst ops = some gw) ∧
      (∀ gw, gw ∈ s.hostGws ↔ OnlyHostRoute w gw ops) ∧
      (∀ gw dst, gwAfter dst ops = some gw → ¬ OnlyHostRoute w gw ops → gw ∈ s.routeGws) ∧
      (∀ gw, gw ∈ s.hostGws → gw ∉ s.routeGws)) := by
  obtain ⟨s, hr, hok, hroutes, hst⟩ := rib_run w ops
  have hb : ∀ dst gw, gwAfter dst ops = some gw → dst ∈ s.dsts gw :=
    fun dst gw h => hok.behind dst gw (by rw [hroutes]; exact h)
  refine ⟨s, hr, hroutes, hb, ?_⟩
  intro hs
  have hiff : ∀ dst gw, dst ∈ s.dsts gw ↔ gwAfter dst ops = some gw := fun dst gw => ⟨hst hs dst gw, hb dst gw⟩
  have hhost : ∀ gw, gw ∈ s.hostGws ↔ OnlyHostRoute w gw ops := by
    intro gw
    rw [hok.host]
    unfold VState.isHostRoute OnlyHostRoute
    have hnd := hok.nodup gw
    have hi := fun dst => hiff dst gw
    rcases hl : s.dsts gw with _ | ⟨a, _ | ⟨b, l⟩⟩
    · rw [hl] at hi
      simp only [Bool.false_eq_true, false_iff]
      intro h
      have h1 := (hi ⟨gw, w⟩).2 ((h ⟨gw, w⟩).2 rfl)
      cases h1
    · rw [hl] at hi
      simp only [Bool.and_eq_true, beq_iff_eq]
      constructor
      · rintro ⟨h1, h2⟩ dst
        rw [← hi, List.mem_singleton]
        cases a
        simp only at h1 h2
        subst h1 h2
        exact Iff.rfl
      · intro h
        have h1 := (h a).1 ((hi a).1 (by simp))
        subst h1
        exact ⟨rfl, rfl⟩
    · rw [hl] at hi hnd
      simp only [Bool.false_eq_true, false_iff]
      intro h
      have h1 := (h a).1 ((hi a).1 (by simp))
      have h2 := (h b).1 ((hi b).1 (by simp))
      subst h1
      subst h2
      simp at hnd
  refine ⟨hiff, hhost, ?_, hok.notBoth⟩
  intro gw dst hd hn
  rcases hok.some gw (by intro he; have := hb dst gw hd; rw [he] at this; cases this) with h | h
  · exact absurd ((hhost gw).1 h) hn
  · exact h

/-- The hypothesis of `gateway_index_partial` on a history: a host and a network behind the same gateway, one of them
deleted and added again. -/
example : Steady [.add ⟨0x0a000000, 24⟩ 5, .del ⟨0x0a000000, 24⟩, .add ⟨5, 32⟩ 5, .add ⟨0x0a000000, 24⟩ 5] := by
  simp [Steady, gwAfter]

/-- C17 is false when a prefix is given another gateway: it stays recorded behind the old one. -/
theorem gateway_moved_defect : ∃ s, ribRun 32 [.add ⟨0x0a000000, 24⟩ 2, .add ⟨0x0a000000, 24⟩ 1] = some s ∧
    (⟨0x0a000000, 24⟩ : Net) ∈ s.dsts 1 ∧ gwAfter ⟨0x0a000000, 24⟩ [.add ⟨0x0a000000, 24⟩ 2, .add ⟨0x0a000000, 24⟩ 1] = some 2 :=
  ⟨_, rfl, by decide, rfl⟩

/-- A gateway whose last route is deleted stays a route gateway: the resolver asks for it for ever. -/
theorem gateway_kept_defect : ∃ s, ribRun 32 [.del ⟨5, 32⟩, .add ⟨5, 32⟩ 5] = some s ∧
    5 ∈ s.routeGws ∧ s.routes = [] :=
  ⟨_, rfl, by decide, by decide⟩

end Faucet.Route
