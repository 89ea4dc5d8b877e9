import Verif.Metrics.Props

/-! # Metrics: concrete cases that meet the hypotheses -/

namespace Faucet.Metrics.Ex

open HostCache (Port)

def p1 : Port := { number := 1 }

def p2 : Port := { number := 2 }

/-- Three hosts on two ports; one port goes down, a host is refreshed, one times out on the switch, one in FAUCET. -/
def history : List Ev :=
  [.learn 7 p1 0, .learn 8 p1 1, .learn 9 p2 2, .update [p1, p2], .learn 8 p1 5, .ruleExpired 7 p1, .update [p1], .portDown p2,
   .learn 10 p2 6, .sweep 1000 10, .learn 11 p1 1001]

example : AllQuiet id {} history := by
  have none {s : St} {m : Nat} (h : HostCache.cachedHost s.cache m = none) {p : Port} {t : Int} : Quiet s (.learn m p t) := by
    rintro n ⟨e, he, -⟩
    rw [h] at he
    cases he
  refine ⟨none rfl, fun _ h => ?_⟩
  cases h
  refine ⟨none rfl, fun _ h => ?_⟩
  cases h
  refine ⟨none rfl, fun _ h => ?_⟩
  cases h
  refine ⟨trivial, fun _ h => ?_⟩
  cases h
  refine ⟨?_, fun _ h => ?_⟩
  · rintro n ⟨e, he, rfl⟩
    cases he
    rfl
  cases h
  refine ⟨trivial, fun _ h => ?_⟩
  cases h
  refine ⟨trivial, fun _ h => ?_⟩
  cases h
  refine ⟨trivial, fun _ h => ?_⟩
  cases h
  refine ⟨none rfl, fun _ h => ?_⟩
  cases h
  refine ⟨trivial, fun _ h => ?_⟩
  cases h
  exact ⟨none rfl, fun _ h => trivial⟩

/-- Then the metrics show the one host that is left. -/
example : ∃ s, run id {} (history ++ [.update [p1, p2]]) = some s ∧ s.total = 1 ∧ s.count 1 = 1 ∧ s.count 2 = 0 ∧ s.macs 1 0 = 11 ∧
    s.macs 1 1 = 0 ∧ s.macs 2 0 = 0 ∧ s.l2port 11 = some 1 ∧ s.l2port 9 = none := ⟨_, rfl, rfl, rfl, rfl, rfl, rfl, rfl, rfl, rfl⟩

end Faucet.Metrics.Ex
