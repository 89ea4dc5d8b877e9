import Verif.Pipeline.Props
import Mathlib.Data.List.Perm.Subperm
import Mathlib.Data.List.Nodup

/-!
# Processing of any packet terminates

For a switch whose flows only go to tables with larger ids, whatever else is in them, and for the messages that keep it so.
-/

namespace Faucet.Pipeline
open Faucet.OF

/-- All gotos of a flow in table `t` are to tables of `ids` with a larger id. -/
def FwdInst (ids : List Nat) (t : Nat) (inst : List Inst) : Prop := ∀ n, .goto n ∈ inst → t < n ∧ n ∈ ids

/-- All flows of the switch go forward. -/
def Forward (ids : List Nat) (sw : Switch) : Prop := ∀ s b, sw.flows s = some b → FwdInst ids s.table b.inst

/-- A message that does not add a flow that goes backward. -/
def FwdMsg (ids : List Nat) : OfMsg → Prop
  | .flow f => f.cmd = .add ∨ f.cmd = .modifyStrict → FwdInst ids f.table f.inst
  | _ => True

/-- One step of a packet: a rule of the table it is in sends it to another table. -/
def Goes (sw : Switch) (x y : Nat × Pkt) : Prop :=
  ∃ s b, Hit sw x.1 x.2 s b ∧ instGoto b.inst = some y.1 ∧ y.2 = (runInst sw b.inst x.2).2

/-- A way of a packet through the tables: each place is reached from the one before. -/
def Way (sw : Switch) : List (Nat × Pkt) → Prop
  | [] => True
  | [_] => True
  | x :: y :: w => Goes sw x y ∧ Way sw (y :: w)

theorem instGoto_mem {inst : List Inst} {n : Nat} (h : instGoto inst = some n) : .goto n ∈ inst := by
  unfold instGoto at h
  have := List.mem_of_mem_head? (by rw [h]; rfl)
  obtain ⟨i, hi, e⟩ := List.mem_filterMap.1 this
  cases i <;> simp at e
  rw [← e]
  exact hi

theorem goes_lt {ids : List Nat} {sw : Switch} (h : Forward ids sw) {x y : Nat × Pkt} (g : Goes sw x y) :
    x.1 < y.1 ∧ y.1 ∈ ids := by
  obtain ⟨s, b, hit, e, _⟩ := g
  have := h s b hit.present y.1 (instGoto_mem e)
  rw [hit.table] at this
  exact this

theorem way_increasing {ids : List Nat} {sw : Switch} (h : Forward ids sw) : ∀ {w : List (Nat × Pkt)} {x : Nat × Pkt},
    Way sw (x :: w) → (∀ y ∈ w, x.1 < y.1 ∧ y.1 ∈ ids) ∧ (w.map Prod.fst).Pairwise (· < ·)
  | [], _, _ => ⟨by simp, by simp⟩
  | y :: w, x, hw => by
    obtain ⟨g, hw⟩ := hw
    obtain ⟨h1, h2⟩ := way_increasing h hw
    have hlt := goes_lt h g
    refine ⟨?_, ?_⟩
    · intro z hz
      rcases List.mem_cons.1 hz with e | hz
      · rw [e]; exact hlt
      · exact ⟨Nat.lt_trans hlt.1 (h1 z hz).1, (h1 z hz).2⟩
    · rw [List.map_cons, List.pairwise_cons]
      refine ⟨?_, h2⟩
      intro n hn
      obtain ⟨z, hz, rfl⟩ := List.mem_map.1 hn
      exact (h1 z hz).1

/-- **No packet is in a table twice, and none goes on for ever**: whatever the packet, the tables it visits have larger and
larger ids, and there are at most as many steps as there are tables. -/
theorem way_bounded {ids : List Nat} {sw : Switch} (h : Forward ids sw) {w : List (Nat × Pkt)} {x : Nat × Pkt}
    (hw : Way sw (x :: w)) : ((x :: w).map Prod.fst).Pairwise (· < ·) ∧ w.length ≤ ids.length := by
  obtain ⟨h1, h2⟩ := way_increasing h hw
  refine ⟨?_, ?_⟩
  · rw [List.map_cons, List.pairwise_cons]
    refine ⟨?_, h2⟩
    intro n hn
    obtain ⟨z, hz, rfl⟩ := List.mem_map.1 hn
    exact (h1 z hz).1
  · have nd : (w.map Prod.fst).Nodup := h2.imp (fun q => Nat.ne_of_lt q)
    have sub : w.map Prod.fst ⊆ ids := by
      intro n hn
      obtain ⟨z, hz, rfl⟩ := List.mem_map.1 hn
      exact (h1 z hz).2
    simpa using (List.subperm_of_subset nd sub).length_le

/-- There is no infinite way. -/
theorem no_infinite_way {ids : List Nat} {sw : Switch} (h : Forward ids sw) :
    ¬ ∃ f : Nat → Nat × Pkt, ∀ n, Goes sw (f n) (f (n + 1)) := by
  rintro ⟨f, hf⟩
  have build : ∀ k n, Way sw (f n :: (List.range' (n + 1) k).map f) := by
    intro k
    induction k with
    | zero => intro n; exact trivial
    | succ k ih =>
      intro n
      rw [List.range'_succ, List.map_cons]
      exact ⟨hf n, ih (n + 1)⟩
  have := (way_bounded h (build (ids.length + 1) 0)).2
  simp at this
  omega

/-! ## A result -/

/-- Priorities are bounded (they are 16 bits wide). -/
def Bounded (sw : Switch) : Prop := ∃ N, ∀ s b, sw.flows s = some b → s.priority ≤ N

theorem hit_or_miss {sw : Switch} (h : Bounded sw) (t : Nat) (p : Pkt) : Miss sw t p ∨ ∃ s b, Hit sw t p s b := by
  obtain ⟨N, hN⟩ := h
  by_cases hm : Miss sw t p
  · exact Or.inl hm
  · right
    have hm : ∃ s b, sw.flows s = some b ∧ s.table = t ∧ hitsAll s.items p = true := by
      simp only [Miss, not_forall] at hm
      obtain ⟨s, b, h1, h2, h3⟩ := hm
      exact ⟨s, b, h1, h2, by simpa using h3⟩
    have climb : ∀ k s b, sw.flows s = some b → s.table = t → hitsAll s.items p = true → N - s.priority ≤ k →
        ∃ s b, Hit sw t p s b := by
      intro k
      induction k with
      | zero =>
        intro s b h1 h2 h3 hk
        refine ⟨s, b, h1, h2, h3, ?_⟩
        intro s' b' h1' _ _
        have := hN s' b' h1'
        omega
      | succ k ih =>
        intro s b h1 h2 h3 hk
        by_cases hb : ∃ s' b', sw.flows s' = some b' ∧ s'.table = t ∧ hitsAll s'.items p = true ∧ s.priority < s'.priority
        · obtain ⟨s', b', g1, g2, g3, g4⟩ := hb
          have := hN s' b' g1
          exact ih s' b' g1 g2 g3 (by omega)
        · refine ⟨s, b, h1, h2, h3, ?_⟩
          intro s' b' g1 g2 g3
          by_contra hlt
          exact hb ⟨s', b', g1, g2, g3, by omega⟩
    obtain ⟨s, b, h1, h2, h3⟩ := hm
    exact climb _ s b h1 h2 h3 (Nat.le_refl _)

/-- **Every packet is processed to the end**, in whatever table it starts. -/
theorem terminates {ids : List Nat} {sw : Switch} (h : Forward ids sw) (hb : Bounded sw) (t : Nat) (p : Pkt) :
    ∃ es, Proc sw t p es := by
  have key : ∀ k t p, (ids.foldl max 0) + 1 - t ≤ k → ∃ es, Proc sw t p es := by
    intro k
    induction k with
    | zero =>
      intro t p hk
      rcases hit_or_miss hb t p with hm | ⟨s, b, hit⟩
      · exact ⟨[], .miss hm⟩
      · cases hg : instGoto b.inst with
        | none => exact ⟨_, .done hit hg⟩
        | some n =>
          have := goes_lt h (x := (t, p)) (y := (n, _)) ⟨s, b, hit, hg, rfl⟩
          have hmax := le_max this.2
          have := this.1
          simp only at this hmax
          omega
    | succ k ih =>
      intro t p hk
      rcases hit_or_miss hb t p with hm | ⟨s, b, hit⟩
      · exact ⟨[], .miss hm⟩
      · cases hg : instGoto b.inst with
        | none => exact ⟨_, .done hit hg⟩
        | some n =>
          have := goes_lt h (x := (t, p)) (y := (n, _)) ⟨s, b, hit, hg, rfl⟩
          have hlt := this.1
          simp only at hlt
          obtain ⟨es, hes⟩ := ih n (runInst sw b.inst p).2 (by omega)
          exact ⟨_, .next hit hg hes⟩
  exact key _ t p (Nat.le_refl _)
where
  le_max {ids : List Nat} {n : Nat} (h : n ∈ ids) : n ≤ ids.foldl max 0 := by
    have gen : ∀ (l : List Nat) (a : Nat), a ≤ l.foldl max a ∧ ∀ n ∈ l, n ≤ l.foldl max a := by
      intro l
      induction l with
      | nil => intro a; simp
      | cons x l ih =>
        intro a
        obtain ⟨h1, h2⟩ := ih (max a x)
        refine ⟨by simp only [List.foldl_cons]; omega, ?_⟩
        intro n hn
        simp only [List.foldl_cons]
        rcases List.mem_cons.1 hn with e | hn
        · omega
        · exact h2 n hn
    exact (gen ids 0).2 n h

/-! ## Messages -/

theorem exec_forward {ids : List Nat} {sw : Switch} {m : OfMsg} (h : Forward ids sw) (hm : FwdMsg ids m) :
    Forward ids (sw.exec m) := by
  intro s b e
  have e : m.onFlow s (sw.flows s) = some b := e
  have keep : ∀ q : Body → Bool, (sw.flows s).filter q = some b → FwdInst ids s.table b.inst := by
    intro q hq
    rw [Option.filter_eq_some_iff] at hq
    exact h s b hq.1
  cases m with
  | flow f =>
    have hm : f.cmd = .add ∨ f.cmd = .modifyStrict → FwdInst ids f.table f.inst := hm
    cases hc : f.cmd with
    | add =>
      simp only [OfMsg.onFlow, hc] at e
      by_cases hs : f.slot = s
      · rw [if_pos hs] at e
        cases e
        rw [← hs]
        exact hm (Or.inl hc)
      · rw [if_neg hs] at e
        exact h s b e
    | modifyStrict =>
      simp only [OfMsg.onFlow, hc] at e
      by_cases hs : f.slot = s
      · rw [if_pos hs] at e
        obtain ⟨x, _, rfl⟩ := Option.map_eq_some_iff.1 e
        rw [← hs]
        exact hm (Or.inr hc)
      · rw [if_neg hs] at e
        exact h s b e
    | delete =>
      simp only [OfMsg.onFlow, hc] at e
      exact keep _ e
    | deleteStrict =>
      simp only [OfMsg.onFlow, hc] at e
      exact keep _ e
  | group g => exact keep _ e
  | meter g => exact keep _ e
  | config g => exact keep _ e
  | tfm g => exact keep _ e
  | packetOut g => exact keep _ e
  | barrier => exact keep _ e
  | other g => exact keep _ e

/-- **A switch that only got forward rules stays so**, for every history of messages (rules may also be removed at any
time, by timeouts for example). -/
theorem execAll_forward {ids : List Nat} {sw : Switch} {ms : List OfMsg} (h : Forward ids sw) (hm : ∀ m ∈ ms, FwdMsg ids m) :
    Forward ids (sw.execAll ms) := by
  induction ms generalizing sw with
  | nil => exact h
  | cons m ms ih =>
    exact ih (exec_forward h (hm m List.mem_cons_self)) (fun x hx => hm x (List.mem_cons_of_mem _ hx))

theorem forward_mono {ids : List Nat} {sw sw' : Switch} (h : Forward ids sw)
    (sub : ∀ s b, sw'.flows s = some b → ∃ b', sw.flows s = some b' ∧ b'.inst = b.inst) : Forward ids sw' := by
  intro s b e
  obtain ⟨b', h1, h2⟩ := sub s b e
  rw [← h2]
  exact h s b' h1

end Faucet.Pipeline
