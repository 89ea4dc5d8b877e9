import Verif.Route.Rib
import Verif.FlowReorder.Spec
import Verif.Encoding.Props
import Mathlib.Tactic.ByContra

/-!
# Effect of the route manager's flow mods on the FIB table
-/

namespace Faucet.Route
open Faucet.OF Faucet Faucet.FlowReorder

/-! ## Batches of additions and strict deletions -/

/-- Effect of messages on the flow in one slot. -/
def slotAfter (ms : List OfMsg) (s : Slot) (b : Option Body) : Option Body := ms.foldl (fun x m => m.onFlow s x) b

theorem execAll_flows (ms : List OfMsg) (sw : Switch) (s : Slot) :
    (sw.execAll ms).flows s = slotAfter ms s (sw.flows s) := by
  induction ms generalizing sw with
  | nil => rfl
  | cons m ms ih =>
    have h : sw.execAll (m :: ms) = (sw.exec m).execAll ms := rfl
    rw [h, ih]
    rfl

theorem slotAfter_append (a b : List OfMsg) (s : Slot) (x : Option Body) :
    slotAfter (a ++ b) s x = slotAfter b s (slotAfter a s x) := by simp [slotAfter, List.foldl_append]

theorem slotAfter_cons (m : OfMsg) (ms : List OfMsg) (s : Slot) (x : Option Body) :
    slotAfter (m :: ms) s x = slotAfter ms s (m.onFlow s x) := rfl

/-- Add a flow. -/
def put (s : Slot) (b : Body) : OfMsg :=
  .flow { cmd := .add, table := s.table, priority := s.priority, mtch := ⟨s.items, 0⟩, cookie := b.cookie, inst := b.inst,
          hard := b.hard, idle := b.idle }

/-- Strictly delete a flow. -/
def cut (c : Nat) (s : Slot) : OfMsg :=
  .flow { cmd := .deleteStrict, table := s.table, priority := s.priority, mtch := ⟨s.items, 0⟩, cookie := c }

theorem onFlow_put (s s' : Slot) (b : Body) (x : Option Body) : (put s b).onFlow s' x = if s = s' then some b else x := rfl

theorem onFlow_cut {c : Nat} {s : Slot} (h : s.table ≠ tableAll) (s' : Slot) (x : Option Body) :
    (cut c s).onFlow s' x = if s = s' then none else x := by
  have hk : ∀ b : Body, (cut c s).kills s' b = decide (s = s') := by
    intro b
    have : (cut c s).kills s' b =
        ((s.table == tableAll || s.table == s'.table) && s.priority == s'.priority && s.items == s'.items && true) := rfl
    rw [this]
    cases s; cases s'
    simp only at h
    rw [Bool.eq_iff_iff]
    simp [h, and_assoc]
  have ho : (cut c s).onFlow s' x = x.filter (fun b => !(cut c s).kills s' b) := rfl
  rw [ho]
  cases x with
  | none => simp
  | some b =>
    simp only [Option.filter, hk]
    by_cases he : s = s'
    · simp [he]
    · simp [he]

/-- The messages add to the slot. -/
def Puts (ms : List OfMsg) (s : Slot) : Prop := ∃ b, put s b ∈ ms

/-- Additions and strict deletions, and whatever is deleted is added again later. -/
def Mended : List OfMsg → Prop
  | [] => True
  | m :: ms => ((∃ s b, m = put s b) ∨ (∃ c s, m = cut c s ∧ s.table ≠ tableAll ∧ Puts ms s)) ∧ Mended ms

theorem puts_append {a b : List OfMsg} {s : Slot} : Puts (a ++ b) s ↔ Puts a s ∨ Puts b s := by
  unfold Puts
  constructor
  · rintro ⟨x, h⟩
    rcases List.mem_append.1 h with h | h
    · exact Or.inl ⟨x, h⟩
    · exact Or.inr ⟨x, h⟩
  · rintro (⟨x, h⟩ | ⟨x, h⟩)
    · exact ⟨x, List.mem_append_left _ h⟩
    · exact ⟨x, List.mem_append_right _ h⟩

theorem mended_append {a b : List OfMsg} (ha : Mended a) (hb : Mended b) : Mended (a ++ b) := by
  induction a with
  | nil => exact hb
  | cons m a ih =>
    refine ⟨?_, ih ha.2⟩
    rcases ha.1 with h | ⟨c, s, h1, h2, h3⟩
    · exact Or.inl h
    · exact Or.inr ⟨c, s, h1, h2, puts_append.2 (Or.inl h3)⟩

theorem put_inj {s s' : Slot} {b b' : Body} (h : put s b = put s' b') : s = s' ∧ b = b' := by
  cases s; cases s'; cases b; cases b'
  simp only [put] at h
  injection h with h
  injection h with h1 h2 h3 h4 h5 h6 h7 h8 h9
  injection h4 with h4
  subst h2 h3 h4 h5 h6 h8 h9
  exact ⟨rfl, rfl⟩

theorem slotAfter_quiet {ms : List OfMsg} (h : Mended ms) {s : Slot} (hs : ¬ Puts ms s) (x : Option Body) :
    slotAfter ms s x = x := by
  induction ms generalizing x with
  | nil => rfl
  | cons m ms ih =>
    have hs' : ¬ Puts ms s := fun ⟨b, hb⟩ => hs ⟨b, List.mem_cons_of_mem _ hb⟩
    rw [slotAfter_cons]
    rcases h.1 with ⟨s1, b, rfl⟩ | ⟨c, s1, rfl, ht, hp⟩
    · rw [onFlow_put, if_neg (by rintro rfl; exact hs ⟨b, by simp⟩)]
      exact ih h.2 hs' x
    · rw [onFlow_cut ht, if_neg (by rintro rfl; exact hs' hp)]
      exact ih h.2 hs' x

theorem put_not_deletion (s : Slot) (b : Body) : isDeletion (put s b) = false := rfl
theorem cut_deletion (c : Nat) (s : Slot) : isDeletion (cut c s) = true := rfl

theorem slotAfter_puts {ms : List OfMsg} (h : Mended ms) {s : Slot} (hs : Puts ms s) (x y : Option Body) :
    slotAfter ms s x = slotAfter (ms.filter (fun m => !isDeletion m)) s y := by
  induction ms generalizing x y with
  | nil => obtain ⟨b, hb⟩ := hs; cases hb
  | cons m ms ih =>
    rw [slotAfter_cons]
    rcases h.1 with ⟨s1, b, rfl⟩ | ⟨c, s1, rfl, ht, hp⟩
    · rw [List.filter_cons_of_pos (by simp [put_not_deletion]), slotAfter_cons, onFlow_put, onFlow_put]
      by_cases hp : Puts ms s
      · exact ih h.2 hp _ _
      · have hs1 : s1 = s := by
          obtain ⟨b', hb⟩ := hs
          rcases List.mem_cons.1 hb with hb | hb
          · exact (put_inj hb).1.symm
          · exact absurd ⟨b', hb⟩ hp
        rw [if_pos hs1, if_pos hs1, slotAfter_quiet h.2 hp]
        have hm : Mended (ms.filter (fun m => !isDeletion m)) := by
          have h2 := h.2
          clear ih h hp hs x y
          induction ms with
          | nil => trivial
          | cons m ms ih =>
            rcases h2.1 with ⟨s2, b2, rfl⟩ | ⟨c, s2, rfl, _, _⟩
            · rw [List.filter_cons_of_pos (by simp [put_not_deletion])]
              exact ⟨Or.inl ⟨s2, b2, rfl⟩, ih h2.2⟩
            · rw [List.filter_cons_of_neg (by simp [cut_deletion])]
              exact ih h2.2
        rw [slotAfter_quiet hm]
        rintro ⟨b', hb⟩
        exact hp ⟨b', (List.mem_filter.1 hb).1⟩
    · rw [List.filter_cons_of_neg (by simp [cut_deletion])]
      refine ih h.2 ?_ _ _
      obtain ⟨b', hb⟩ := hs
      rcases List.mem_cons.1 hb with hb | hb
      · injection hb with hb; injection hb with hb; cases hb
      · exact ⟨b', hb⟩

/-- Moving the deletions to the front of such a batch makes no difference. -/
theorem mended_reorder {ms : List OfMsg} (h : Mended ms) (s : Slot) (x : Option Body) :
    slotAfter (deletesFirst ms) s x = slotAfter ms s x := by
  unfold deletesFirst
  rw [slotAfter_append]
  by_cases hp : Puts ms s
  · rw [slotAfter_puts h hp x _]
  · rw [slotAfter_quiet h hp]
    have h1 : ∀ (l : List OfMsg), (∀ m ∈ l, m ∈ ms) → ∀ x, slotAfter l s x = x := by
      intro l hl
      induction l with
      | nil => intro x; rfl
      | cons m l ih =>
        intro x
        rw [slotAfter_cons]
        have hm : m.onFlow s x = x := by
          have hmem := hl m (by simp)
          clear ih hl
          induction ms with
          | nil => cases hmem
          | cons m' ms ih =>
            have hp' : ¬ Puts ms s := fun ⟨b, hb⟩ => hp ⟨b, List.mem_cons_of_mem _ hb⟩
            rcases List.mem_cons.1 hmem with rfl | hmem
            · rcases h.1 with ⟨s1, b, rfl⟩ | ⟨c, s1, rfl, ht, hq⟩
              · rw [onFlow_put, if_neg (by rintro rfl; exact hp ⟨b, by simp⟩)]
              · rw [onFlow_cut ht, if_neg (by rintro rfl; exact hp' hq)]
            · exact ih h.2 hp' hmem
        rw [hm]
        exact ih (fun m hm => hl m (List.mem_cons_of_mem _ hm)) x
    rw [h1 _ (fun m hm => (List.mem_filter.1 hm).1), h1 _ (fun m hm => (List.mem_filter.1 hm).1)]

theorem deletes_reorder {ms : List OfMsg} (h : ∀ m ∈ ms, isDeletion m = true) : deletesFirst ms = ms := by
  unfold deletesFirst
  rw [List.filter_eq_self.2 h, List.filter_eq_nil_iff.2 (by intro m hm; simp [h m hm]), List.append_nil]

/-! ## Slots and bodies of the FIB -/

/-- The slot of a prefix in the traffic of a VLAN. -/
def Mgr.slot (m : Mgr) (vid : Nat) (n : Net) : Slot := ⟨m.fib.id, m.routePriority n, m.routeMatch vid n⟩

theorem vidPresent_inj {a b : Nat} (ha : a < 4096) (hb : b < 4096) (h : vidPresent a = vidPresent b) : a = b := by
  have h1 := Encoding.vid_present_roundtrip (v := a) ha
  have h2 := Encoding.vid_present_roundtrip (v := b) hb
  rw [← h1.1, ← h2.1, h]

theorem slot_inj {m : Mgr} {a b : Nat} {n n' : Net} (ha : a < 4096) (hb : b < 4096) :
    m.slot a n = m.slot b n' ↔ a = b ∧ n = n' := by
  constructor
  · intro h
    unfold Mgr.slot Mgr.routePriority Mgr.routeMatch at h
    injection h with _ h2 h3
    injection h3 with h4 h5
    injection h4 with _ h4 _
    injection h5 with _ h5
    injection h5 with h5 _
    injection h5 with _ h5 _
    cases n; cases n'
    simp only at h2 h5
    refine ⟨vidPresent_inj ha hb h4, ?_⟩
    rw [h5]
    congr 1
    omega
  · rintro ⟨rfl, rfl⟩; rfl

/-- The flow of a route: to L2 forwarding with the MACs rewritten. -/
def Mgr.routeBody (m : Mgr) (v : Vlan) (mac : Nat) : Body :=
  { inst := [.goto m.toL2, .apply (m.nexthopActs v mac)], cookie := m.fib.cookie }

def Mgr.holeBody (m : Mgr) (hard : Nat) : Body := { inst := [], cookie := m.fib.cookie, hard := hard }

def Mgr.vipBody (m : Mgr) : Body := { inst := [.goto m.vip.id], cookie := m.fib.cookie }

theorem nexthopActs_ne (m : Mgr) (v : Vlan) (mac : Nat) : m.nexthopActs v mac ≠ [] := by
  unfold Mgr.nexthopActs; simp

theorem trim_accept (m : Mgr) (v : Vlan) (mac : Nat) :
    trimInst (m.acceptL2 (m.nexthopActs v mac)) = [.goto m.toL2, .apply (m.nexthopActs v mac)] := by
  simp [Mgr.acceptL2, trimInst, trimOne, Inst.isGoto, nexthopActs_ne]

theorem routeFlows_eq (m : Mgr) (v : Vlan) (dst : Net) (mac : Nat) :
    m.routeFlows v dst mac = (m.routed v).map (fun rv => put (m.slot rv dst) (m.routeBody v mac)) := by
  unfold Mgr.routeFlows
  refine List.map_congr_left ?_
  intro rv _
  unfold Table.flowadd
  rw [trim_accept]
  rfl

theorem delRouteFlows_eq (m : Mgr) (v : Vlan) (dst : Net) :
    m.delRouteFlows v dst = (m.routed v).map (fun rv => cut m.fib.cookie (m.slot rv dst)) := rfl

theorem blackhole_eq (m : Mgr) (v : Vlan) (ip hard : Nat) :
    m.blackhole v ip hard = (m.routed v).map (fun rv => put (m.slot rv (hostNet m.width ip)) (m.holeBody hard)) := rfl

theorem slotAfter_puts_map (l : List Nat) (f : Nat → Slot) (b : Body) (s : Slot) (x : Option Body) :
    (s ∈ l.map f → slotAfter (l.map (fun a => put (f a) b)) s x = some b) ∧
    (s ∉ l.map f → slotAfter (l.map (fun a => put (f a) b)) s x = x) := by
  have keep : ∀ (l : List Nat), slotAfter (l.map (fun a => put (f a) b)) s (some b) = some b := by
    intro l
    induction l with
    | nil => rfl
    | cons a l ih =>
      rw [List.map_cons, slotAfter_cons, onFlow_put]
      split
      · exact ih
      · exact ih
  induction l generalizing x with
  | nil => exact ⟨fun h => (by cases h), fun _ => rfl⟩
  | cons a l ih =>
    constructor
    · intro h
      rw [List.map_cons, slotAfter_cons, onFlow_put]
      by_cases ha : f a = s
      · rw [if_pos ha]; exact keep l
      · rw [if_neg ha]
        refine (ih x).1 ?_
        rw [List.map_cons] at h
        rcases List.mem_cons.1 h with h | h
        · exact absurd h.symm ha
        · exact h
    · intro h
      rw [List.map_cons, List.mem_cons, not_or] at h
      rw [List.map_cons, slotAfter_cons, onFlow_put, if_neg (Ne.symm h.1)]
      exact (ih x).2 h.2

theorem slotAfter_cuts_map (c : Nat) (l : List Nat) (f : Nat → Slot) (hf : ∀ a, (f a).table ≠ tableAll) (s : Slot) (x : Option Body) :
    (s ∈ l.map f → slotAfter (l.map (fun a => cut c (f a))) s x = none) ∧
    (s ∉ l.map f → slotAfter (l.map (fun a => cut c (f a))) s x = x) := by
  have keep : ∀ (l : List Nat), slotAfter (l.map (fun a => cut c (f a))) s none = none := by
    intro l
    induction l with
    | nil => rfl
    | cons a l ih =>
      rw [List.map_cons, slotAfter_cons, onFlow_cut (hf a)]
      split <;> exact ih
  induction l generalizing x with
  | nil => exact ⟨fun h => (by cases h), fun _ => rfl⟩
  | cons a l ih =>
    constructor
    · intro h
      rw [List.map_cons, slotAfter_cons, onFlow_cut (hf a)]
      by_cases ha : f a = s
      · rw [if_pos ha]; exact keep l
      · rw [if_neg ha]
        refine (ih x).1 ?_
        rw [List.map_cons] at h
        rcases List.mem_cons.1 h with h | h
        · exact absurd h.symm ha
        · exact h
    · intro h
      rw [List.map_cons, List.mem_cons, not_or] at h
      rw [List.map_cons, slotAfter_cons, onFlow_cut (hf a), if_neg (Ne.symm h.1)]
      exact (ih x).2 h.2

/-- The slot is that of the prefix in one of the VLAN's routed VLANs. -/
def Mgr.At (m : Mgr) (v : Vlan) (dst : Net) (s : Slot) : Prop := ∃ rv ∈ m.routed v, m.slot rv dst = s

theorem at_iff {m : Mgr} {v : Vlan} {dst : Net} {s : Slot} : s ∈ (m.routed v).map (fun rv => m.slot rv dst) ↔ m.At v dst s := by
  simp [Mgr.At]

theorem addResolved_after {m : Mgr} (ht : m.fib.id ≠ tableAll) (v : Vlan) (dst : Net) (mac : Nat) (u : Bool) (s : Slot)
    (x : Option Body) : (m.At v dst s → slotAfter (m.addResolved v dst mac u) s x = some (m.routeBody v mac)) ∧
      (¬ m.At v dst s → slotAfter (m.addResolved v dst mac u) s x = x) := by
  unfold Mgr.addResolved
  rw [slotAfter_append, routeFlows_eq]
  constructor
  · intro h
    exact (slotAfter_puts_map _ _ _ s _).1 (at_iff.2 h)
  · intro h
    rw [(slotAfter_puts_map _ _ _ s _).2 (fun hh => h (at_iff.1 hh))]
    cases u
    · rfl
    · rw [if_pos rfl, delRouteFlows_eq]
      exact (slotAfter_cuts_map _ _ _ (fun _ => ht) s x).2 (fun hh => h (at_iff.1 hh))

theorem nexthop_after {m : Mgr} (ht : m.fib.id ≠ tableAll) (v : Vlan) (dsts : List Net) (mac : Nat) (u : Bool) (s : Slot)
    (x : Option Body) :
    ((∃ dst ∈ dsts, m.At v dst s) → slotAfter (dsts.flatMap (fun dst => m.addResolved v dst mac u)) s x = some (m.routeBody v mac)) ∧
    ((¬ ∃ dst ∈ dsts, m.At v dst s) → slotAfter (dsts.flatMap (fun dst => m.addResolved v dst mac u)) s x = x) := by
  have keep : ∀ (l : List Net),
      slotAfter (l.flatMap (fun dst => m.addResolved v dst mac u)) s (some (m.routeBody v mac)) = some (m.routeBody v mac) := by
    intro l
    induction l with
    | nil => rfl
    | cons d l ih =>
      rw [List.flatMap_cons, slotAfter_append]
      by_cases h : m.At v d s
      · rw [(addResolved_after ht v d mac u s _).1 h]; exact ih
      · rw [(addResolved_after ht v d mac u s _).2 h]; exact ih
  induction dsts generalizing x with
  | nil => exact ⟨fun ⟨_, h, _⟩ => (by cases h), fun _ => rfl⟩
  | cons d l ih =>
    rw [List.flatMap_cons, slotAfter_append]
    constructor
    · rintro ⟨dst, hd, hs⟩
      by_cases h : m.At v d s
      · rw [(addResolved_after ht v d mac u s _).1 h]; exact keep l
      · rw [(addResolved_after ht v d mac u s _).2 h]
        rcases List.mem_cons.1 hd with rfl | hd
        · exact absurd hs h
        · exact (ih x).1 ⟨dst, hd, hs⟩
    · intro h
      rw [(addResolved_after ht v d mac u s _).2 (fun hh => h ⟨d, by simp, hh⟩)]
      exact (ih x).2 (fun ⟨dst, hd, hs⟩ => h ⟨dst, List.mem_cons_of_mem _ hd, hs⟩)

theorem mended_puts (l : List Nat) (f : Nat → Slot) (b : Body) : Mended (l.map (fun a => put (f a) b)) := by
  induction l with
  | nil => trivial
  | cons a l ih => exact ⟨Or.inl ⟨f a, b, rfl⟩, ih⟩

theorem mended_addResolved {m : Mgr} (ht : m.fib.id ≠ tableAll) (v : Vlan) (dst : Net) (mac : Nat) (u : Bool) :
    Mended (m.addResolved v dst mac u) := by
  unfold Mgr.addResolved
  rw [routeFlows_eq]
  cases u
  · exact mended_puts _ _ _
  · rw [if_pos rfl, delRouteFlows_eq]
    have : ∀ l : List Nat, (∀ a ∈ l, a ∈ m.routed v) → Mended (l.map (fun rv => cut m.fib.cookie (m.slot rv dst)) ++
        (m.routed v).map (fun rv => put (m.slot rv dst) (m.routeBody v mac))) := by
      intro l hl
      induction l with
      | nil => exact mended_puts _ _ _
      | cons a l ih =>
        refine ⟨Or.inr ⟨_, _, rfl, ht, ?_⟩, ih (fun a ha => hl a (List.mem_cons_of_mem _ ha))⟩
        refine puts_append.2 (Or.inr ⟨m.routeBody v mac, ?_⟩)
        exact List.mem_map.2 ⟨a, hl a (by simp), rfl⟩
    exact this _ (fun _ h => h)

theorem mended_flatMap {α : Type} (l : List α) (f : α → List OfMsg) (h : ∀ a, Mended (f a)) : Mended (l.flatMap f) := by
  induction l with
  | nil => trivial
  | cons a l ih => rw [List.flatMap_cons]; exact mended_append (h a) ih

/-! ## The flow mods of the operations -/

/-- The FIB after messages, as a function of the slot. -/
def after (ms : List RMsg) (F : Slot → Option Body) : Slot → Option Body := fun s => slotAfter (flowMods ms) s (F s)

theorem flowMods_append (a b : List RMsg) : flowMods (a ++ b) = flowMods a ++ flowMods b := List.filterMap_append ..

theorem flowMods_of (l : List OfMsg) : flowMods (l.map RMsg.of) = l := by
  induction l with
  | nil => rfl
  | cons a l ih => simp only [flowMods, List.map_cons, List.filterMap_cons] at *; rw [ih]

theorem after_append (a b : List RMsg) (F : Slot → Option Body) : after (a ++ b) F = after b (after a F) := by
  funext s
  simp only [after, flowMods_append, slotAfter_append]

theorem after_nil (F : Slot → Option Body) : after [] F = F := rfl

theorem flowMods_asks (e : Env) (v : Vlan) (gw : Nat) (n : NextHop) : flowMods (Mgr.asks e v gw n) = [] := by
  unfold Mgr.asks
  split
  · rfl
  · induction e.floods v.vid with
    | zero => rfl
    | succ k ih => rw [List.replicate_succ]; exact ih

end Faucet.Route
