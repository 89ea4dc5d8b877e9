import Verif.Base.Sort
import Mathlib.Algebra.Order.Field.Rat
import Mathlib.Tactic.FieldSimp
import Mathlib.Tactic.Linarith
import Mathlib.Tactic.Ring

/-!
# Choosing the stack root (C24)

Model of `/repo/faucet/stack.py` 115-251, 283-293, `/repo/faucet/valve_stack.py` 232-312 and
`/repo/faucet/valves_manager.py` 112-222.

Percentages and times are rationals here (floats in the code).  The set of switches the nomination
loops over is a list, in any order.
-/

namespace Faucet.Stack

/-- A stacked switch as the nomination sees it: `prio` is `none` unless the switch is a root candidate
(`is_root_candidate`: the stack's priority is set, stack.py 262, 283-285); numbers of stack and LACP
ports, how many of them are up, the configured minimum fractions, how many update intervals it may
be down, and whether it is connected. -/
structure Node where
  name : Nat
  dpId : Nat
  prio : Option Nat
  stackUp : Nat
  stackAll : Nat
  lacpUp : Nat
  lacpAll : Nat
  minStack : Rat
  minLacp : Rat
  downMult : Rat
  running : Bool
deriving DecidableEq

/-- `dyn_healthy_info` and `dyn_healthy`, stack.py 92-95. -/
structure Health where
  alive : Bool
  stackPct : Rat
  lacpPct : Rat
  healthy : Bool
deriving DecidableEq

/-- `stack_port_healthy` and `lacp_port_healthy`, stack.py 136-171: the fraction of ports that are up. -/
def pct (up all : Nat) : Rat := if all = 0 then 1 else 1 - ((all - up : Rat) / all)

/-- Whether the fraction suffices, stack.py 148-153, 166-171. -/
def portsOk (up all : Nat) (min : Rat) : Bool := if all = 0 then true else decide (min ≤ pct up all)

/-- `update_health`, stack.py 173-233.  `live` is the time the switch was last seen connected. -/
def health (now upd live : Rat) (n : Node) : Health :=
  if now - n.downMult * upd ≤ live then
    let lacpOk := if n.lacpAll = 0 then true else portsOk n.lacpUp n.lacpAll n.minLacp
    let lacpPct := if n.lacpAll = 0 then 0 else pct n.lacpUp n.lacpAll
    ⟨true, pct n.stackUp n.stackAll, lacpPct, portsOk n.stackUp n.stackAll n.minStack && lacpOk⟩
  else ⟨false, 0, 0, false⟩

/-- Lexicographic comparison, one component. -/
def lexStep (a b : Rat) (rest : Bool) : Bool := decide (a < b) || (decide (a = b) && rest)

/-- Order of `health_priority`, stack.py 239-246. -/
def keyLe (h : Node → Health) (a b : Node) : Bool :=
  lexStep (if (h a).healthy then 0 else 1) (if (h b).healthy then 0 else 1)
    (lexStep (1 - (h a).stackPct) (1 - (h b).stackPct)
      (lexStep (1 - (h a).lacpPct) (1 - (h b).lacpPct)
        (lexStep (a.prio.getD 0) (b.prio.getD 0) (decide (a.dpId ≤ b.dpId)))))

/-- `Stack.nominate_stack_root`, stack.py 235-251: the first in order. -/
def best (h : Node → Health) (l : List Node) : Option Node := (isort (keyLe h) l).head?

/-- `ValveStackManager.nominate_stack_root`, valve_stack.py 254-312: the switches are those with
stacking, including the current root if it is there. -/
def nominate (h : Node → Health) (root : Option Nat) (nodes : List Node) : Option Nat :=
  let cands := nodes.filter (fun n => n.prio.isSome)
  let good := cands.filter (fun n => (h n).healthy)
  let bad := cands.filter (fun n => !(h n).healthy && (h n).alive)
  if good = [] ∧ bad = [] then none
  else
    let pool := if good = [] then bad else good
    if pool.any (fun n => some n.name == root) then root else (best h pool).map (·.name)

/-- `MetaDPState`: the root and when each switch was last connected. -/
structure Meta where
  root : Option Nat
  live : Nat → Rat

/-- Controller start, valves_manager.py 43-58: no root, nothing seen (`get(name, 0)`). -/
def Meta.new : Meta := ⟨none, fun _ => 0⟩

/-- `update_dp_live_time`, valves_manager.py 113-122. -/
def liveTimes (now : Rat) (nodes : List Node) (live : Nat → Rat) : Nat → Rat :=
  fun x => if nodes.any (fun n => n.name == x && n.running) then now else live x

/-- `maintain_stack_root` and `set_stack_root`, valves_manager.py 141-222, as far as they decide the
root: `nodes` are the stacked switches at the time. -/
def maintain (m : Meta) (now upd : Rat) (nodes : List Node) : Meta :=
  let live := liveTimes now nodes m.live
  let h := fun n : Node => health now upd (live n.name) n
  let root := if nodes.any (fun n => some n.name == m.root) then m.root else none
  match nominate h root nodes with
  | none => ⟨m.root, live⟩
  | some r => if nodes.any (fun n => n.name == r) then ⟨some r, live⟩ else ⟨m.root, live⟩

/-- A switch whose health has not been looked at, stack.py 92-95. -/
def unknownHealth (_ : Node) : Health := ⟨false, 0, 0, false⟩

/-- The root every switch is configured with on (re)load, stack.py 283-293. -/
def configuredRoot (m : Meta) (nodes : List Node) : Option Nat :=
  let cands := nodes.filter (fun n => n.prio.isSome)
  if cands.any (fun n => some n.name == m.root) then m.root else (best unknownHealth cands).map (·.name)

/-! ## Specification -/

/-- A root candidate. -/
def Candidate (nodes : List Node) (x : Nat) : Prop := ∃ n ∈ nodes, n.name = x ∧ n.prio.isSome = true

/-- The switch was connected recently enough. -/
def Recent (now upd live : Rat) (n : Node) : Prop := now - live ≤ n.downMult * upd

/-- The documented meaning of health: connected recently, and enough stack ports and enough LACP ports
(if there are any) up. -/
def Healthy (now upd live : Rat) (n : Node) : Prop :=
  Recent now upd live n ∧
  (n.stackAll ≠ 0 → n.minStack * n.stackAll ≤ n.stackUp) ∧
  (n.lacpAll ≠ 0 → n.minLacp * n.lacpAll ≤ n.lacpUp)

/-- Fraction of stack ports that are up. -/
def StackFrac (n : Node) : Rat := if n.stackAll = 0 then 1 else n.stackUp / n.stackAll

/-- Fraction of LACP ports that are up, none if there are none. -/
def LacpFrac (n : Node) : Rat := if n.lacpAll = 0 then 0 else n.lacpUp / n.lacpAll

/-! ## Proof: health -/

theorem pct_eq {up all : Nat} (h : all ≠ 0) : pct up all = up / all := by
  have hpos : (0 : Rat) < all := by exact_mod_cast Nat.pos_of_ne_zero h
  unfold pct
  rw [if_neg h]
  field_simp
  ring

theorem portsOk_iff {up all : Nat} {min : Rat} :
    portsOk up all min = true ↔ (all ≠ 0 → min * all ≤ up) := by
  unfold portsOk
  by_cases h : all = 0
  · simp [h]
  · rw [if_neg h, decide_eq_true_eq]
    have hpos : (0 : Rat) < all := by exact_mod_cast Nat.pos_of_ne_zero h
    rw [pct_eq h, le_div_iff₀ hpos]
    simp [h]

theorem healthy_iff {now upd live : Rat} {n : Node} :
    (health now upd live n).healthy = true ↔ Healthy now upd live n := by
  unfold health Healthy Recent
  have hc : now - n.downMult * upd ≤ live ↔ now - live ≤ n.downMult * upd := by
    constructor <;> intro h <;> linarith
  by_cases h : now - n.downMult * upd ≤ live
  · rw [if_pos h]
    simp only [Bool.and_eq_true, portsOk_iff]
    have := hc.1 h
    by_cases hl : n.lacpAll = 0
    · simp [hl, this]
    · simp only [if_neg hl, portsOk_iff]
      simp [this]
  · rw [if_neg h]
    simp only [Bool.false_eq_true, false_iff]
    rintro ⟨h1, _⟩
    exact h (hc.2 h1)

theorem alive_iff {now upd live : Rat} {n : Node} :
    (health now upd live n).alive = true ↔ Recent now upd live n := by
  unfold health Recent
  have hc : now - n.downMult * upd ≤ live ↔ now - live ≤ n.downMult * upd := by
    constructor <;> intro h <;> linarith
  by_cases h : now - n.downMult * upd ≤ live
  · rw [if_pos h]; simp [hc.1 h]
  · rw [if_neg h]; simp only [Bool.false_eq_true, false_iff]; exact fun h' => h (hc.2 h')

theorem health_fracs {now upd live : Rat} {n : Node} (h : Recent now upd live n) :
    (health now upd live n).stackPct = StackFrac n ∧ (health now upd live n).lacpPct = LacpFrac n := by
  have hc : now - n.downMult * upd ≤ live := by unfold Recent at h; linarith
  unfold health StackFrac LacpFrac
  rw [if_pos hc]
  dsimp only
  constructor
  · by_cases h0 : n.stackAll = 0
    · simp [pct, h0]
    · rw [if_neg h0, pct_eq h0]
  · by_cases h0 : n.lacpAll = 0
    · simp [h0]
    · rw [if_neg h0, if_neg h0, pct_eq h0]

/-! ## Proof: the order -/

theorem lexStep_total {a b : Rat} {r r' : Bool} (h : r = true ∨ r' = true) :
    lexStep a b r = true ∨ lexStep b a r' = true := by
  simp only [lexStep, Bool.or_eq_true, decide_eq_true_eq, Bool.and_eq_true]
  rcases lt_trichotomy a b with h1 | h1 | h1
  · exact .inl (.inl h1)
  · rcases h with h | h
    · exact .inl (.inr ⟨h1, h⟩)
    · exact .inr (.inr ⟨h1.symm, h⟩)
  · exact .inr (.inl h1)

theorem lexStep_trans {a b c : Rat} {r r' r'' : Bool} (h : r = true → r' = true → r'' = true)
    (h1 : lexStep a b r = true) (h2 : lexStep b c r' = true) : lexStep a c r'' = true := by
  simp only [lexStep, Bool.or_eq_true, decide_eq_true_eq, Bool.and_eq_true] at *
  rcases h1 with h1 | ⟨rfl, h1⟩
  · rcases h2 with h2 | ⟨rfl, h2⟩
    · exact .inl (lt_trans h1 h2)
    · exact .inl h1
  · rcases h2 with h2 | ⟨rfl, h2⟩
    · exact .inl h2
    · exact .inr ⟨rfl, h h1 h2⟩

theorem lexStep_antisymm {a b : Rat} {r r' : Bool} (h1 : lexStep a b r = true)
    (h2 : lexStep b a r' = true) : r = true ∧ r' = true := by
  simp only [lexStep, Bool.or_eq_true, decide_eq_true_eq, Bool.and_eq_true] at *
  rcases h1 with h1 | ⟨rfl, h1⟩
  · rcases h2 with h2 | ⟨rfl, h2⟩
    · exact absurd h1 (lt_asymm h2)
    · exact absurd h1 (lt_irrefl _)
  · rcases h2 with h2 | ⟨_, h2⟩
    · exact absurd h2 (lt_irrefl _)
    · exact ⟨h1, h2⟩

theorem keyLe_total (h : Node → Health) (a b : Node) : keyLe h a b = true ∨ keyLe h b a = true := by
  unfold keyLe
  exact lexStep_total (lexStep_total (lexStep_total (lexStep_total
    (by simpa using Nat.le_total a.dpId b.dpId))))

theorem keyLe_trans (h : Node → Health) (a b c : Node) (h1 : keyLe h a b = true)
    (h2 : keyLe h b c = true) : keyLe h a c = true := by
  unfold keyLe at *
  refine lexStep_trans (fun h1 h2 => lexStep_trans (fun h1 h2 => lexStep_trans (fun h1 h2 =>
    lexStep_trans (fun h1 h2 => ?_) h1 h2) h1 h2) h1 h2) h1 h2
  simp only [decide_eq_true_eq] at *
  omega

theorem keyLe_antisymm (h : Node → Health) (a b : Node) (h1 : keyLe h a b = true)
    (h2 : keyLe h b a = true) : a.dpId = b.dpId := by
  unfold keyLe at *
  have k1 := lexStep_antisymm h1 h2
  have k2 := lexStep_antisymm k1.1 k1.2
  have k3 := lexStep_antisymm k2.1 k2.2
  have k4 := lexStep_antisymm k3.1 k3.2
  simp only [decide_eq_true_eq] at k4
  omega

theorem best_spec {h : Node → Health} {l : List Node} {n : Node} (hb : best h l = some n) :
    n ∈ l ∧ ∀ m ∈ l, keyLe h n m = true := by
  have hp := isort_pairwise (le := keyLe h) (keyLe_total h) (keyLe_trans h) l
  unfold best at hb
  cases hs : isort (keyLe h) l with
  | nil => rw [hs] at hb; simp at hb
  | cons a t =>
    rw [hs] at hb hp
    simp only [List.head?_cons, Option.some.injEq] at hb
    subst hb
    have hm : ∀ x, x ∈ a :: t ↔ x ∈ l := fun x => by rw [← hs]; exact mem_isort
    refine ⟨(hm _).1 (by simp), ?_⟩
    intro m hml
    rcases List.mem_cons.1 ((hm m).2 hml) with rfl | h'
    · rcases keyLe_total h m m with h | h <;> exact h
    · exact (List.pairwise_cons.1 hp).1 m h'

theorem best_none {h : Node → Health} {l : List Node} (hb : best h l = none) : l = [] := by
  unfold best at hb
  rw [List.head?_eq_none_iff] at hb
  exact isort_eq_nil.1 hb

theorem best_perm {h : Node → Health} {l l' : List Node} (hp : l.Perm l')
    (hid : ∀ a ∈ l, ∀ b ∈ l, a.dpId = b.dpId → a = b) : best h l = best h l' := by
  cases h1 : best h l with
  | none =>
    have := best_none h1
    subst this
    have : l' = [] := List.nil_perm.1 hp
    subst this
    exact h1.symm
  | some a =>
    cases h2 : best h l' with
    | none =>
      have := best_none h2
      subst this
      have := hp.mem_iff.1 (best_spec h1).1
      simp at this
    | some b =>
      obtain ⟨a1, a2⟩ := best_spec h1
      obtain ⟨b1, b2⟩ := best_spec h2
      have b1' := hp.mem_iff.2 b1
      have := hid a a1 b b1' (keyLe_antisymm h a b (a2 b b1') (b2 a (hp.mem_iff.1 a1)))
      rw [this]

/-! ## Properties of one nomination -/

section
variable {root : Option Nat} {nodes : List Node} {x : Nat}

/-- The pool the root is taken from. -/
theorem nominate_cases (h : Node → Health) (hx : nominate h root nodes = some x) :
    ∃ n ∈ nodes, n.name = x ∧ n.prio.isSome = true ∧ ((h n).alive || (h n).healthy) = true ∧
      ((∃ m ∈ nodes, m.prio.isSome = true ∧ (h m).healthy = true) → (h n).healthy = true) ∧
      (root ≠ some x → ∀ m ∈ nodes, m.prio.isSome = true → (h m).healthy = (h n).healthy →
        ((h m).alive || (h m).healthy) = true → keyLe h n m = true) := by
  unfold nominate at hx
  dsimp only at hx
  split at hx
  · simp at hx
  · rename_i hne
    by_cases hg : (nodes.filter (fun n => n.prio.isSome)).filter (fun n => (h n).healthy) = []
    · -- none healthy
      have hnone : ∀ m ∈ nodes, m.prio.isSome = true → (h m).healthy = false := by
        intro m hm hp
        rw [List.filter_eq_nil_iff] at hg
        have := hg m (List.mem_filter.2 ⟨hm, hp⟩)
        simpa using this
      rw [if_pos hg] at hx
      split at hx
      · rename_i hr
        rw [List.any_eq_true] at hr
        obtain ⟨n, hn, hnr⟩ := hr
        simp only [beq_iff_eq] at hnr
        simp only [List.mem_filter, Bool.and_eq_true, Bool.not_eq_true'] at hn
        obtain ⟨⟨n1, n2⟩, n3, n4⟩ := hn
        rw [hx] at hnr
        simp only [Option.some.injEq] at hnr
        refine ⟨n, n1, hnr, n2, by simp [n4], ?_, ?_⟩
        · rintro ⟨m, m1, m2, m3⟩
          rw [hnone m m1 m2] at m3; simp at m3
        · intro hne'; exact absurd hx hne'
      · cases hb : best h ((nodes.filter (fun n => n.prio.isSome)).filter
            (fun n => !(h n).healthy && (h n).alive)) with
        | none => rw [hb] at hx; simp at hx
        | some n =>
          rw [hb] at hx
          simp only [Option.map_some, Option.some.injEq] at hx
          obtain ⟨k1, k2⟩ := best_spec hb
          simp only [List.mem_filter, Bool.and_eq_true, Bool.not_eq_true'] at k1
          obtain ⟨⟨n1, n2⟩, n3, n4⟩ := k1
          refine ⟨n, n1, hx, n2, by simp [n4], ?_, ?_⟩
          · rintro ⟨m, m1, m2, m3⟩
            rw [hnone m m1 m2] at m3; simp at m3
          · intro _ m m1 m2 m3 m4
            apply k2
            simp only [List.mem_filter, Bool.and_eq_true, Bool.not_eq_true']
            rw [n3] at m3
            rw [m3, Bool.or_false] at m4
            exact ⟨⟨m1, m2⟩, m3, m4⟩
    · rw [if_neg hg] at hx
      split at hx
      · rename_i hr
        rw [List.any_eq_true] at hr
        obtain ⟨n, hn, hnr⟩ := hr
        simp only [beq_iff_eq] at hnr
        simp only [List.mem_filter] at hn
        obtain ⟨⟨n1, n2⟩, n3⟩ := hn
        rw [hx] at hnr
        simp only [Option.some.injEq] at hnr
        refine ⟨n, n1, hnr, n2, by simp [n3], fun _ => n3, ?_⟩
        intro hne'; exact absurd hx hne'
      · cases hb : best h ((nodes.filter (fun n => n.prio.isSome)).filter (fun n => (h n).healthy)) with
        | none => rw [hb] at hx; simp at hx
        | some n =>
          rw [hb] at hx
          simp only [Option.map_some, Option.some.injEq] at hx
          obtain ⟨k1, k2⟩ := best_spec hb
          simp only [List.mem_filter] at k1
          obtain ⟨⟨n1, n2⟩, n3⟩ := k1
          refine ⟨n, n1, hx, n2, by simp [n3], fun _ => n3, ?_⟩
          intro _ m m1 m2 m3 _
          apply k2
          simp only [List.mem_filter]
          exact ⟨⟨m1, m2⟩, by rw [m3, n3]⟩

end

/-! ## Properties of the root over time -/

/-- Names identify switches. -/
def Distinct (nodes : List Node) : Prop :=
  (∀ a ∈ nodes, ∀ b ∈ nodes, a.name = b.name → a = b) ∧
  (∀ a ∈ nodes, ∀ b ∈ nodes, a.dpId = b.dpId → a = b)

/-- When a switch was last connected, once those connected now are counted. -/
def LastLive (m : Meta) (now : Rat) (n : Node) : Rat := if n.running then now else m.live n.name

theorem liveTimes_eq {nodes : List Node} (hd : Distinct nodes) {n : Node} (hn : n ∈ nodes) (m : Meta)
    (now : Rat) : liveTimes now nodes m.live n.name = LastLive m now n := by
  unfold liveTimes LastLive
  by_cases hr : n.running = true
  · rw [if_pos hr, if_pos]
    rw [List.any_eq_true]
    exact ⟨n, hn, by simp [hr]⟩
  · rw [if_neg hr, if_neg]
    rw [List.any_eq_true]
    rintro ⟨k, hk, hk'⟩
    simp only [Bool.and_eq_true, beq_iff_eq] at hk'
    have := hd.1 k hk n hn hk'.1
    subst this
    exact hr hk'.2

/-- What `maintain` comes to. -/
theorem maintain_root (m : Meta) (now upd : Rat) (nodes : List Node) :
    (maintain m now upd nodes).root =
      (nominate (fun n => health now upd (liveTimes now nodes m.live n.name) n)
        (if nodes.any (fun n => some n.name == m.root) then m.root else none) nodes).or m.root := by
  unfold maintain
  dsimp only
  split
  · rename_i h; rw [h]; rfl
  · rename_i r h
    rw [h]
    obtain ⟨n, h1, h2, _⟩ := nominate_cases _ h
    rw [if_pos]
    · rfl
    · rw [List.any_eq_true]; exact ⟨n, h1, by simp [h2]⟩

/-- C24: whenever the root is set or changed, it is set to a root candidate that was connected
recently; and to a healthy one if there is a healthy candidate at all. -/
theorem root_change {m : Meta} {now upd : Rat} {nodes : List Node} (hd : Distinct nodes) {x : Nat}
    (hx : (maintain m now upd nodes).root = some x) (hne : m.root ≠ some x) :
    ∃ n ∈ nodes, n.name = x ∧ n.prio.isSome = true ∧ Recent now upd (LastLive m now n) n ∧
      ((∃ k ∈ nodes, k.prio.isSome = true ∧ Healthy now upd (LastLive m now k) k) →
        Healthy now upd (LastLive m now n) n) := by
  rw [maintain_root] at hx
  cases hn : nominate (fun n => health now upd (liveTimes now nodes m.live n.name) n)
      (if nodes.any (fun n => some n.name == m.root) then m.root else none) nodes with
  | none => rw [hn] at hx; simp at hx; exact absurd hx hne
  | some y =>
    rw [hn] at hx
    simp only [Option.some_or, Option.some.injEq] at hx
    subst hx
    obtain ⟨n, n1, n2, n3, n4, n5, _⟩ := nominate_cases _ hn
    have hl := liveTimes_eq hd n1 m now
    refine ⟨n, n1, n2, n3, ?_, ?_⟩
    · simp only [Bool.or_eq_true] at n4
      rcases n4 with h | h
      · rw [alive_iff, hl] at h; exact h
      · rw [healthy_iff, hl] at h; exact h.1
    · rintro ⟨k, k1, k2, k3⟩
      have := n5 ⟨k, k1, k2, by rw [healthy_iff, liveTimes_eq hd k1 m now]; exact k3⟩
      rw [healthy_iff, hl] at this
      exact this

/-- C24: a healthy root is kept. -/
theorem healthy_root_kept {m : Meta} {now upd : Rat} {nodes : List Node} (hd : Distinct nodes)
    {n : Node} (hn : n ∈ nodes) (hp : n.prio.isSome = true) (hr : m.root = some n.name)
    (hh : Healthy now upd (LastLive m now n) n) : (maintain m now upd nodes).root = some n.name := by
  rw [maintain_root]
  have hany : (nodes.any (fun n => some n.name == m.root)) = true := by
    rw [List.any_eq_true]; exact ⟨n, hn, by simp [hr]⟩
  rw [if_pos hany, hr]
  have hg : (health now upd (liveTimes now nodes m.live n.name) n).healthy = true := by
    rw [healthy_iff, liveTimes_eq hd hn m now]; exact hh
  have hmem : n ∈ (nodes.filter (fun n => n.prio.isSome)).filter
      (fun n => (health now upd (liveTimes now nodes m.live n.name) n).healthy) := by
    simp only [List.mem_filter]; exact ⟨⟨hn, hp⟩, hg⟩
  have hne : (nodes.filter (fun n => n.prio.isSome)).filter
      (fun n => (health now upd (liveTimes now nodes m.live n.name) n).healthy) ≠ [] :=
    List.ne_nil_of_mem hmem
  have : nominate (fun n => health now upd (liveTimes now nodes m.live n.name) n) (some n.name) nodes
      = some n.name := by
    unfold nominate
    dsimp only
    rw [if_neg (fun h => hne h.1), if_neg hne, if_pos]
    rw [List.any_eq_true]
    exact ⟨n, hmem, by simp⟩
  rw [this]; rfl

/-- C24: an unhealthy root is replaced as soon as there is a healthy candidate. -/
theorem unhealthy_root_replaced {m : Meta} {now upd : Rat} {nodes : List Node} (hd : Distinct nodes)
    {k : Node} (hk : k ∈ nodes) (hp : k.prio.isSome = true)
    (hh : Healthy now upd (LastLive m now k) k) :
    ∃ n ∈ nodes, (maintain m now upd nodes).root = some n.name ∧ n.prio.isSome = true ∧
      Healthy now upd (LastLive m now n) n := by
  rw [maintain_root]
  have hg : (health now upd (liveTimes now nodes m.live k.name) k).healthy = true := by
    rw [healthy_iff, liveTimes_eq hd hk m now]; exact hh
  cases hn : nominate (fun n => health now upd (liveTimes now nodes m.live n.name) n)
      (if nodes.any (fun n => some n.name == m.root) then m.root else none) nodes with
  | none =>
    exfalso
    unfold nominate at hn
    dsimp only at hn
    have hne : (nodes.filter (fun n => n.prio.isSome)).filter
        (fun n => (health now upd (liveTimes now nodes m.live n.name) n).healthy) ≠ [] :=
      List.ne_nil_of_mem (List.mem_filter.2 ⟨List.mem_filter.2 ⟨hk, hp⟩, hg⟩)
    rw [if_neg (fun h => hne h.1), if_neg hne] at hn
    generalize (if nodes.any (fun n => some n.name == m.root) then m.root else none) = root at hn
    split at hn
    · rename_i h
      rw [hn, List.any_eq_true] at h
      obtain ⟨n, _, h⟩ := h
      simp at h
    · rw [Option.map_eq_none_iff] at hn
      exact hne (best_none hn)
  | some y =>
    obtain ⟨n, n1, n2, n3, _, n5, _⟩ := nominate_cases _ hn
    refine ⟨n, n1, by simp [n2], n3, ?_⟩
    have := n5 ⟨k, hk, hp, hg⟩
    rw [healthy_iff, liveTimes_eq hd n1 m now] at this
    exact this

/-- C24: the result does not depend on the order in which the switches are listed. -/
theorem root_order_independent {m : Meta} {now upd : Rat} {nodes nodes' : List Node}
    (hd : Distinct nodes) (hp : nodes.Perm nodes') :
    (maintain m now upd nodes).root = (maintain m now upd nodes').root := by
  rw [maintain_root, maintain_root]
  have hany : ∀ f : Node → Bool, nodes.any f = nodes'.any f := by
    intro f
    rw [Bool.eq_iff_iff, List.any_eq_true, List.any_eq_true]
    constructor
    · rintro ⟨a, h1, h2⟩; exact ⟨a, hp.mem_iff.1 h1, h2⟩
    · rintro ⟨a, h1, h2⟩; exact ⟨a, hp.mem_iff.2 h1, h2⟩
  have hlive : liveTimes now nodes m.live = liveTimes now nodes' m.live := by
    funext x; unfold liveTimes; rw [hany]
  rw [hlive, hany]
  congr 1
  generalize (fun n : Node => health now upd (liveTimes now nodes' m.live n.name) n) = h
  generalize (if nodes'.any (fun n => some n.name == m.root) then m.root else none) = root
  unfold nominate
  dsimp only
  have p1 := hp.filter (fun n => n.prio.isSome)
  have pg := p1.filter (fun n => (h n).healthy)
  have pb := p1.filter (fun n => !(h n).healthy && (h n).alive)
  have nilg : ∀ {l l' : List Node}, l.Perm l' → (l = [] ↔ l' = []) := by
    intro l l' hq
    constructor
    · rintro rfl; exact List.nil_perm.1 hq
    · rintro rfl; exact List.perm_nil.1 hq
  have key : ∀ {l l' : List Node}, l.Perm l' → (∀ a ∈ l, a ∈ nodes) →
      (if l.any (fun n => some n.name == root) then root else (best h l).map (·.name)) =
      (if l'.any (fun n => some n.name == root) then root else (best h l').map (·.name)) := by
    intro l l' hq hsub
    have e1 : l.any (fun n => some n.name == root) = l'.any (fun n => some n.name == root) := by
      rw [Bool.eq_iff_iff, List.any_eq_true, List.any_eq_true]
      constructor
      · rintro ⟨a, h1, h2⟩; exact ⟨a, hq.mem_iff.1 h1, h2⟩
      · rintro ⟨a, h1, h2⟩; exact ⟨a, hq.mem_iff.2 h1, h2⟩
    rw [e1, best_perm hq (fun a ha b hb => hd.2 a (hsub a ha) b (hsub b hb))]
  have mem1 : ∀ a ∈ (nodes.filter (fun n => n.prio.isSome)).filter (fun n => (h n).healthy), a ∈ nodes := by
    intro a ha; simp only [List.mem_filter] at ha; exact ha.1.1
  have mem2 : ∀ a ∈ (nodes.filter (fun n => n.prio.isSome)).filter
      (fun n => !(h n).healthy && (h n).alive), a ∈ nodes := by
    intro a ha; simp only [List.mem_filter] at ha; exact ha.1.1
  by_cases c1 : (nodes.filter (fun n => n.prio.isSome)).filter (fun n => (h n).healthy) = []
  · have c1' := (nilg pg).1 c1
    by_cases c2 : (nodes.filter (fun n => n.prio.isSome)).filter
        (fun n => !(h n).healthy && (h n).alive) = []
    · rw [if_pos ⟨c1, c2⟩, if_pos ⟨c1', (nilg pb).1 c2⟩]
    · have c2' := mt (nilg pb).2 c2
      rw [if_pos c1, if_pos c1']
      simp only [c1, c1', c2, c2', and_false, if_false]
      exact key pb mem2
  · have c1' := mt (nilg pg).2 c1
    rw [if_neg c1, if_neg c1']
    simp only [c1, c1', false_and, if_false]
    exact key pg mem1

/-- C24: a new root is the best of the recently connected candidates that share its health: no other
has more of its stack ports up; among those with as many, none has more LACP ports up; among those,
none has a lower priority number; among those, none has a lower id. -/
theorem new_root_best {m : Meta} {now upd : Rat} {nodes : List Node} (hd : Distinct nodes) {x : Nat}
    (hx : (maintain m now upd nodes).root = some x) (hne : m.root ≠ some x) :
    ∃ n ∈ nodes, n.name = x ∧
      ∀ k ∈ nodes, k.prio.isSome = true → Recent now upd (LastLive m now k) k →
        (Healthy now upd (LastLive m now k) k ↔ Healthy now upd (LastLive m now n) n) →
        StackFrac k ≤ StackFrac n ∧
        (StackFrac k = StackFrac n → LacpFrac k ≤ LacpFrac n ∧
          (LacpFrac k = LacpFrac n → n.prio.getD 0 ≤ k.prio.getD 0 ∧
            (n.prio.getD 0 = k.prio.getD 0 → n.dpId ≤ k.dpId))) := by
  rw [maintain_root] at hx
  cases hn : nominate (fun n => health now upd (liveTimes now nodes m.live n.name) n)
      (if nodes.any (fun n => some n.name == m.root) then m.root else none) nodes with
  | none => rw [hn] at hx; simp at hx; exact absurd hx hne
  | some y =>
    rw [hn] at hx
    simp only [Option.some_or, Option.some.injEq] at hx
    subst hx
    obtain ⟨n, n1, n2, n3, n4, _, n6⟩ := nominate_cases _ hn
    have hln := liveTimes_eq hd n1 m now
    have hrn : Recent now upd (LastLive m now n) n := by
      simp only [Bool.or_eq_true] at n4
      rcases n4 with h | h
      · rw [alive_iff, hln] at h; exact h
      · rw [healthy_iff, hln] at h; exact h.1
    refine ⟨n, n1, n2, ?_⟩
    intro k k1 k2 k3 k4
    have hlk := liveTimes_eq hd k1 m now
    have hroot : (if nodes.any (fun n => some n.name == m.root) then m.root else none) ≠ some y := by
      split
      · exact hne
      · simp
    have hsame : (health now upd (LastLive m now k) k).healthy =
        (health now upd (LastLive m now n) n).healthy := by
      rw [Bool.eq_iff_iff, healthy_iff, healthy_iff]; exact k4
    have hal : ((health now upd (LastLive m now k) k).alive ||
        (health now upd (LastLive m now k) k).healthy) = true := by
      rw [Bool.or_eq_true]; exact .inl (alive_iff.2 k3)
    have := n6 hroot k k1 k2 (by rw [hlk, hln]; exact hsame) (by rw [hlk]; exact hal)
    unfold keyLe lexStep at this
    simp only [hlk, hln, hsame, (health_fracs hrn).1, (health_fracs hrn).2, (health_fracs k3).1,
      (health_fracs k3).2] at this
    simp only [lt_irrefl, decide_false, Bool.false_or, decide_true, Bool.true_and, Bool.or_eq_true,
      decide_eq_true_eq, Bool.and_eq_true, sub_lt_sub_iff_left, sub_right_inj, Nat.cast_lt,
      Nat.cast_inj] at this
    rcases this with h | ⟨h, h'⟩
    · exact ⟨le_of_lt h, fun he => absurd h (by rw [he]; exact lt_irrefl _)⟩
    · refine ⟨le_of_eq h.symm, fun _ => ?_⟩
      rcases h' with h' | ⟨h', h''⟩
      · exact ⟨le_of_lt h', fun he => absurd h' (by rw [he]; exact lt_irrefl _)⟩
      · refine ⟨le_of_eq h'.symm, fun _ => ?_⟩
        rcases h'' with h'' | ⟨h'', h3⟩
        · exact ⟨le_of_lt h'', fun he => absurd h'' (by omega)⟩
        · exact ⟨le_of_eq h'', fun _ => h3⟩

/-! ## Histories -/

/-- A sequence of checks, each with the switches as they are at that time. -/
def maintainAll (m : Meta) : List (Rat × Rat × List Node) → Meta
  | [] => m
  | (now, upd, nodes) :: rest => maintainAll (maintain m now upd nodes) rest

/-- C24: whatever happens to the switches, as long as the candidates stay the same the root is one of
them. -/
theorem root_always_candidate (cs : List Nat) (hist : List (Rat × Rat × List Node))
    (hc : ∀ s ∈ hist, ∀ x, Candidate s.2.2 x ↔ x ∈ cs) (m : Meta)
    (hm : ∀ x, m.root = some x → x ∈ cs) (x : Nat) (hx : (maintainAll m hist).root = some x) : x ∈ cs := by
  induction hist generalizing m with
  | nil => exact hm x hx
  | cons s rest ih =>
    obtain ⟨now, upd, nodes⟩ := s
    refine ih (fun s hs => hc s (by simp [hs])) _ ?_ hx
    intro y hy
    rw [maintain_root] at hy
    cases hn : nominate (fun n => health now upd (liveTimes now nodes m.live n.name) n)
        (if nodes.any (fun n => some n.name == m.root) then m.root else none) nodes with
    | none => rw [hn] at hy; exact hm y (by simpa using hy)
    | some z =>
      rw [hn] at hy
      simp only [Option.some_or, Option.some.injEq] at hy
      subst hy
      obtain ⟨n, n1, n2, n3, _⟩ := nominate_cases _ hn
      exact (hc (now, upd, nodes) (by simp) z).1 ⟨n, n1, n2, n3⟩

/-- C24: on a reload every switch is given the root in force if that is still a candidate, and in any
case a candidate. -/
theorem configured_root {m : Meta} {nodes : List Node} :
    (∀ x, m.root = some x → Candidate nodes x → configuredRoot m nodes = some x) ∧
    (∀ x, configuredRoot m nodes = some x → Candidate nodes x) ∧
    ((∃ x, Candidate nodes x) → ∃ x, configuredRoot m nodes = some x) := by
  unfold configuredRoot
  dsimp only
  refine ⟨?_, ?_, ?_⟩
  · rintro x hx ⟨n, h1, h2, h3⟩
    rw [if_pos, hx]
    rw [List.any_eq_true]
    exact ⟨n, List.mem_filter.2 ⟨h1, h3⟩, by simp [hx, h2]⟩
  · intro x hx
    split at hx
    · rename_i h
      rw [List.any_eq_true] at h
      obtain ⟨n, h1, h2⟩ := h
      rw [List.mem_filter] at h1
      rw [hx] at h2
      simp only [beq_iff_eq, Option.some.injEq] at h2
      exact ⟨n, h1.1, h2, h1.2⟩
    · cases hb : best unknownHealth (nodes.filter (fun n => n.prio.isSome)) with
      | none => rw [hb] at hx; simp at hx
      | some n =>
        rw [hb] at hx
        simp only [Option.map_some, Option.some.injEq] at hx
        have := (best_spec hb).1
        rw [List.mem_filter] at this
        exact ⟨n, this.1, hx, this.2⟩
  · rintro ⟨x, n, h1, h2, h3⟩
    split
    · rename_i h
      rw [List.any_eq_true] at h
      obtain ⟨k, _, hk⟩ := h
      simp only [beq_iff_eq] at hk
      exact ⟨k.name, hk.symm⟩
    · cases hb : best unknownHealth (nodes.filter (fun n => n.prio.isSome)) with
      | none =>
        have := best_none hb
        rw [List.filter_eq_nil_iff] at this
        exact absurd h3 (this n h1)
      | some k => exact ⟨k.name, rfl⟩

end Faucet.Stack
