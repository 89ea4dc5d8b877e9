import Verif.Routed.Model

/-! # The messages of the route manager -/

namespace Faucet.Routed
open Faucet.OF Faucet.Route Faucet.FlowReorder

section
variable {m : Mgr} {vs : List Vlan} {P : Net → Prop} {st : St}

/-- What operations of the route manager send: flows of routes, black holes, and strict deletes of such flows. -/
def FibMsg (m : Mgr) (vs : List Vlan) (x : OfMsg) : Prop :=
  (∃ v ∈ vs, ∃ rv ∈ m.routed v, ∃ n mac, x = put (m.slot rv n) (m.routeBody v mac)) ∨
  (∃ rv n hard, x = put (m.slot rv n) (m.holeBody hard)) ∨ ∃ c rv n, x = cut c (m.slot rv n)

def FibMsgs (m : Mgr) (vs : List Vlan) (ms : List OfMsg) : Prop := ∀ x ∈ ms, FibMsg m vs x

theorem fib_nil : FibMsgs m vs [] := fun _ h => absurd h List.not_mem_nil

theorem fib_append {a b : List OfMsg} (ha : FibMsgs m vs a) (hb : FibMsgs m vs b) : FibMsgs m vs (a ++ b) := by
  intro x hx
  rcases List.mem_append.1 hx with h | h
  · exact ha x h
  · exact hb x h

theorem fib_dels (v : Vlan) (dst : Net) : FibMsgs m vs (m.delRouteFlows v dst) := by
  rw [delRouteFlows_eq]
  intro x hx
  obtain ⟨rv, -, rfl⟩ := List.mem_map.1 hx
  exact Or.inr (Or.inr ⟨_, rv, dst, rfl⟩)

theorem fib_addResolved {v : Vlan} (hv : v ∈ vs) (dst : Net) (mac : Nat) (u : Bool) : FibMsgs m vs (m.addResolved v dst mac u) := by
  unfold Mgr.addResolved
  refine fib_append ?_ ?_
  · split
    · exact fib_dels v dst
    · exact fib_nil
  · rw [routeFlows_eq]
    intro x hx
    obtain ⟨rv, hrv, rfl⟩ := List.mem_map.1 hx
    exact Or.inl ⟨v, hv, rv, hrv, dst, mac, rfl⟩

theorem fib_update (now : Int) {v : Vlan} (hv : v ∈ vs) (port mac gw : Nat) :
    FibMsgs m vs (flowMods (m.updateNexthop st now v port mac gw).2) := by
  unfold Mgr.updateNexthop
  rw [flowMods_of]
  unfold Mgr.nexthopFlows
  split
  · intro x hx
    obtain ⟨d, -, hx⟩ := List.mem_flatMap.1 hx
    exact fib_addResolved hv d mac _ x hx
  · exact fib_nil

theorem gwVlan_mem (hc : ConfOk m vs) {v u : Vlan} (hv : v ∈ vs) {gw : Nat} (h : m.gwVlan v gw = some u) : u ∈ vs := by
  rw [gwVlan_eq] at h
  cases hf : m.vipFor v gw with
  | none => rw [hf] at h; cases h
  | some e =>
    rw [hf] at h
    obtain ⟨a, x⟩ := e
    have h : some a = some u := h
    cases h
    exact (vipFor_some hc hv hf).1

theorem fib_addRoute (hc : ConfOk m vs) {v : Vlan} (hv : v ∈ vs) (gw : Nat) (dst : Net) : FibMsgs m vs (flowMods (m.addRoute st v gw dst).2) := by
  unfold Mgr.addRoute
  split
  · exact fib_nil
  · rename_i u hu
    split
    · exact fib_nil
    · split
      · exact fib_nil
      · unfold Mgr.putRoute
        simp only
        split
        · rw [flowMods_of]; exact fib_addResolved (gwVlan_mem hc hv hu) _ _ _
        · exact fib_nil

theorem fib_delRoute (v : Vlan) (dst : Net) : FibMsgs m vs (flowMods (m.delRoute st v dst).2) := by
  unfold Mgr.delRoute
  split
  · exact fib_nil
  · split
    · exact fib_nil
    · rw [flowMods_of]; exact fib_dels v dst

theorem fib_addHost (hc : ConfOk m vs) (e : Env) {v : Vlan} (hv : v ∈ vs) (ip : Nat) (hole : Bool) :
    FibMsgs m vs (flowMods (m.addHost e st v ip hole).2) := by
  unfold Mgr.addHost
  simp only
  rw [flowMods_append]
  refine fib_append ?_ (fib_addRoute hc hv ip _)
  split
  · rw [flowMods_of, blackhole_eq]
    intro x hx
    obtain ⟨rv, -, rfl⟩ := List.mem_map.1 hx
    exact Or.inr (Or.inl ⟨rv, _, _, rfl⟩)
  · exact fib_nil

theorem fib_learn (hc : ConfOk m vs) (e : Env) (now : Int) {v : Vlan} (hv : v ∈ vs) (port mac ip : Nat) :
    FibMsgs m vs (flowMods (m.learnHost e st now v port mac ip).2) := by
  unfold Mgr.learnHost
  simp only
  rw [flowMods_append]
  exact fib_append (fib_addHost hc e hv ip false) (fib_update now hv port mac ip)

theorem fib_hostPkt (hc : ConfOk m vs) (e : Env) (now : Int) {v : Vlan} (hv : v ∈ vs) (port mac ip : Nat) :
    FibMsgs m vs (flowMods (m.hostPkt e st now v port mac ip).2) := by
  unfold Mgr.hostPkt
  split
  · exact fib_learn hc e now hv port mac ip
  · exact fib_nil

theorem fib_resolveGw (e : Env) (now : Int) (v : Vlan) (gw : Nat) (n : NextHop) :
    FibMsgs m vs (flowMods (m.resolveGw e st now v gw n).2) := by
  rw [mended_resolveGw]; exact fib_nil

theorem fib_startHop (e : Env) (now : Int) (v : Vlan) (dst : Nat) (b : Bool) : FibMsgs m vs (flowMods (m.startHop e st now v dst b).2) := by
  unfold Mgr.startHop
  split
  · exact fib_nil
  · exact fib_resolveGw e now v dst _

theorem fib_expire (v : Vlan) (gw : Nat) (n : NextHop) : FibMsgs m vs (flowMods (m.expireGw st v gw n).2) := by
  unfold Mgr.expireGw
  simp only
  split
  · exact fib_nil
  · exact fib_delRoute v _

theorem fib_loop (hosts : Bool) (e : Env) (now : Int) (v : Vlan) (gws : List Nat) (r : Int) (st : St) :
    FibMsgs m vs (flowMods (m.resolveLoop e hosts now v gws r st).2) := by
  induction gws generalizing r st with
  | nil => exact fib_nil
  | cons gw gws ih =>
    rcases loop_cons m e hosts now v gw gws r st with ⟨_, hq⟩ | ⟨_, _, hq⟩ | ⟨n, r', st', ms, _, _, _, hh, _, hq⟩
    · rw [hq]; exact fib_nil
    · rw [hq]; exact ih r st
    · rw [hq]
      rw [flowMods_append]
      refine fib_append ?_ (ih r' st')
      have : ms = (m.handler hosts e st now v gw n).2 := by rw [hh]
      rw [this]
      unfold Mgr.handler
      cases hosts
      · simp only [Bool.false_eq_true, if_false]; exact fib_resolveGw e now v gw n
      · simp only [if_true, Mgr.resolveExpire]
        split
        · exact fib_expire v gw n
        · exact fib_resolveGw e now v gw n

theorem fib_expireAll (v : Vlan) (l : List (Nat × NextHop)) (st : St) : FibMsgs m vs (flowMods (m.expireAll v l st).2) := by
  induction l generalizing st with
  | nil => exact fib_nil
  | cons y l ih =>
    unfold Mgr.expireAll
    simp only
    rw [flowMods_append]
    exact fib_append (fib_expire v y.1 y.2) (ih _)

theorem fib_portDown (port : Nat) (us : List Vlan) (st : St) : FibMsgs m vs (flowMods (m.portDown port us st).2) := by
  induction us generalizing st with
  | nil => exact fib_nil
  | cons v us ih =>
    unfold Mgr.portDown
    simp only
    rw [flowMods_append]
    exact fib_append (fib_expireAll v _ st) (ih _)

theorem fib_step (hc : ConfOk m vs) (e : Env) {o : Op} (ht : Tame m vs P st o) : FibMsgs m vs (flowMods (m.step e st o).2) := by
  cases o with
  | announce v gw dst => exact fib_addRoute hc ht.1 gw dst
  | withdraw v dst => exact fib_delRoute v dst
  | hostPkt now v port mac ip => exact fib_hostPkt hc e now ht.1 port mac ip
  | askVip now v port mac src target =>
    show FibMsgs m vs (flowMods (m.askVip e st now v port mac src target).2)
    unfold Mgr.askVip
    split
    · split
      · simp only
        rw [flowMods_append]
        exact fib_append (fib_learn hc e now ht.1 port mac src) fib_nil
      · exact fib_nil
    · exact fib_nil
  | advert now v port mac target =>
    show FibMsgs m vs (flowMods (m.advert st now v port mac target).2)
    unfold Mgr.advert
    split
    · exact fib_update now ht port mac target
    · exact fib_nil
  | toHost now v port mac src dst =>
    show FibMsgs m vs (flowMods (m.toHost e st now v port mac src dst).2)
    unfold Mgr.toHost
    split
    · split
      · rename_i u x hvf
        split
        · unfold Mgr.seekHost
          simp only
          rw [flowMods_append, flowMods_append]
          exact fib_append (fib_append (fib_hostPkt hc e now ht.1 port mac src) (fib_addHost hc e (vipFor_some hc ht.1 hvf).1 dst true))
            (fib_startHop e now u dst _)
        · exact fib_nil
      · exact fib_nil
    · exact fib_nil
  | resolve hosts all now v => exact fib_loop hosts e now v _ _ _
  | portDown port us => exact fib_portDown port us st

theorem fib_deletesFirst {ms : List OfMsg} (h : FibMsgs m vs ms) : FibMsgs m vs (deletesFirst ms) := by
  intro x hx
  unfold deletesFirst at hx
  rcases List.mem_append.1 hx with hx | hx
  · exact h x (List.mem_filter.1 hx).1
  · exact h x (List.mem_filter.1 hx).1

/-- Where the flow in a slot comes from after such messages. -/
theorem fib_after (hc : m.fib.id ≠ tableAll) {ms : List OfMsg} (h : FibMsgs m vs ms) (s : Slot) (x : Option Body) :
    (s.table ≠ m.fib.id → slotAfter ms s x = x) ∧
    ∀ b, slotAfter ms s x = some b → x = some b ∨ (∃ v ∈ vs, ∃ rv ∈ m.routed v, ∃ n mac, s = m.slot rv n ∧ b = m.routeBody v mac) ∨
      ∃ rv n hard, s = m.slot rv n ∧ b = m.holeBody hard := by
  induction ms generalizing x with
  | nil => exact ⟨fun _ => rfl, fun b hb => Or.inl hb⟩
  | cons y ms ih =>
    have ih := ih (fun z hz => h z (List.mem_cons_of_mem _ hz)) (y.onFlow s x)
    rw [slotAfter_cons]
    rcases h y (by simp) with ⟨v, hv, rv, hrv, n, mac, rfl⟩ | ⟨rv, n, hard, rfl⟩ | ⟨c, rv, n, rfl⟩
    · rw [onFlow_put] at ih ⊢
      by_cases hs : m.slot rv n = s
      · rw [if_pos hs] at ih ⊢
        refine ⟨fun hne => absurd (by rw [← hs]; rfl) hne, fun b hb => ?_⟩
        rcases ih.2 b hb with h | h
        · exact Or.inr (Or.inl ⟨v, hv, rv, hrv, n, mac, hs.symm, (Option.some.inj h).symm⟩)
        · exact Or.inr h
      · rw [if_neg hs] at ih ⊢; exact ih
    · rw [onFlow_put] at ih ⊢
      by_cases hs : m.slot rv n = s
      · rw [if_pos hs] at ih ⊢
        refine ⟨fun hne => absurd (by rw [← hs]; rfl) hne, fun b hb => ?_⟩
        rcases ih.2 b hb with h | h
        · exact Or.inr (Or.inr ⟨rv, n, hard, hs.symm, (Option.some.inj h).symm⟩)
        · exact Or.inr h
      · rw [if_neg hs] at ih ⊢; exact ih
    · rw [onFlow_cut (show (m.slot rv n).table ≠ tableAll from hc)] at ih ⊢
      by_cases hs : m.slot rv n = s
      · rw [if_pos hs] at ih ⊢
        refine ⟨fun hne => absurd (by rw [← hs]; rfl) hne, fun b hb => ?_⟩
        rcases ih.2 b hb with h | h
        · cases h
        · exact Or.inr h
      · rw [if_neg hs] at ih ⊢; exact ih

/-- A list of puts: a slot keeps its flow unless one of them is for it. -/
theorem puts_after {ms : List OfMsg} (h : ∀ x ∈ ms, ∃ s b, x = put s b) (s : Slot) (y : Option Body) :
    (¬ Puts ms s → slotAfter ms s y = y) ∧ (Puts ms s → ∃ b, put s b ∈ ms ∧ slotAfter ms s y = some b) := by
  induction ms generalizing y with
  | nil => exact ⟨fun _ => rfl, fun ⟨_, h⟩ => absurd h List.not_mem_nil⟩
  | cons x ms ih =>
    have ih := ih (fun z hz => h z (List.mem_cons_of_mem _ hz))
    obtain ⟨s1, b1, rfl⟩ := h x (by simp)
    rw [slotAfter_cons, onFlow_put]
    by_cases hp : Puts ms s
    · refine ⟨fun hn => absurd ?_ hn, fun _ => ?_⟩
      · obtain ⟨b, hb⟩ := hp; exact ⟨b, List.mem_cons_of_mem _ hb⟩
      · obtain ⟨b, h1, h2⟩ := (ih (if s1 = s then some b1 else y)).2 hp
        exact ⟨b, List.mem_cons_of_mem _ h1, h2⟩
    · rw [(ih _).1 hp]
      by_cases hs : s1 = s
      · subst hs
        exact ⟨fun hn => absurd ⟨b1, by simp⟩ hn, fun _ => ⟨b1, by simp, by simp⟩⟩
      · rw [if_neg hs]
        refine ⟨fun _ => rfl, ?_⟩
        rintro ⟨b, hb⟩
        rcases List.mem_cons.1 hb with hb | hb
        · exact absurd (put_inj hb).1.symm hs
        · exact absurd ⟨b, hb⟩ hp

end

end Faucet.Routed
