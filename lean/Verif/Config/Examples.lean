import Verif.Config.ManagerProps

/-! # Configuration management: concrete cases and defects -/

namespace Faucet.Config

open Faucet

/-- Contents of `exParse`, plus 17, which includes 18 twice, and 19, like 1 with another setting. -/
def mParse : Content → Yaml
  | 17 => .map { settings := [((0, 1), 170)], includes := some [18], optIncludes := some [18] }
  | 18 => .map { settings := [((0, 2), 180)], includes := some [5] }
  | 19 => .map { settings := [((0, 1), 10), ((1, 1), 12)], includes := some [2], optIncludes := some [3] }
  | 20 => .map { settings := [((0, 1), 200)] }
  | 21 => .map { settings := [((0, 1), 210)] }
  | c => exParse c

/-- Setting (0, 1) is the configuration of switch 1; without it the configuration is invalid. -/
def mEnv : MEnv := { parse := mParse, resolve := fun _ n => n, validate := fun t => (t.get? (0, 1)).map (fun v => [(1, v)]),
                     supported := fun _ => true, cold := fun _ c => c == 210, file := 1 }

theorem mEnv_ok : mEnv.Ok := by
  intro t dps h
  simp only [mEnv, Option.map_eq_some_iff] at h
  obtain ⟨v, _, rfl⟩ := h
  simp

/-- A configuration is loaded, the switch connects, a bad file is written and polled, then a good one. -/
def exOps : List MOp := [.edit 1 (some (20, 0)), .reload 0, .connect 1, .poll 0, .edit 1 (some (0, 1)), .poll 0]

/-- Final state of a history. -/
def final (ops : List MOp) : Mgr := (Mgr.run mEnv {} ops).getD {}

example : (Mgr.run mEnv {} exOps).isSome ∧ (final exOps).valves = [(1, ⟨200, true⟩)] ∧ (final exOps).loadError = true ∧
    (final exOps).metric = (0, 1) ∧ Consistent (final exOps).trace ∧ parseConfigs mEnv (final exOps).files 1 = .invalid := by
  refine ⟨by decide +kernel, by decide +kernel, by decide +kernel, by decide +kernel, ?_, by decide +kernel⟩
  have : (final exOps).trace = [(1, true)] := by decide +kernel
  rw [this]; intro q h; simp at h ⊢

/-- The hypotheses of `reload_follows_disk_partial` after a further good edit, and of `poll_loads_iff` and
`untouched_never_reloaded_partial` before the bad one. -/
example : (final (exOps ++ [.edit 1 (some (21, 2))])).watchFile = some 1 ∧
    (∃ s, parseConfigs mEnv (final (exOps ++ [.edit 1 (some (21, 2))])).files 1 = .valid s [(1, 210)]) ∧
    (final (exOps.take 4)).watchHashes = some [(1, some 20)] ∧ (final (exOps.take 4)).stats = some [(1, 0)] ∧
    (final (exOps.take 4)).files.get? 1 = some 20 ∧ (final (exOps.take 4)).metric = (1, 1) ∧
    (final (exOps ++ [.edit 1 (some (21, 2)), .poll 0])).valves = [(1, ⟨210, false⟩)] := by
  refine ⟨by decide +kernel, ⟨{ hashes := [(1, some 21)], contents := [(1, 21)], confs := [((0, 1), 210)], trace := [(1, true)] },
    by decide +kernel⟩, by decide +kernel, by decide +kernel, by decide +kernel, by decide +kernel, by decide +kernel⟩

/-- The configuration file is deleted: the failed load is reported, but the next reload request clears the error although
the configuration still cannot be loaded. -/
theorem missing_config_error_cleared_defect : ∃ ops : List MOp,
    (final ops).loadError = true ∧ (final (ops ++ [.reload 0])).loadError = false ∧
    parseConfigs mEnv (final (ops ++ [.reload 0])).files mEnv.file = .invalid ∧
    (final (ops ++ [.reload 0])).files = (final ops).files :=
  ⟨[.edit 1 (some (20, 0)), .reload 0, .edit 1 none, .reload 0], by decide +kernel⟩

/-- A file that was loaded as a required include and then skipped as an optional one is recorded as not loaded; when it is
deleted the configuration is no longer valid, but no reload notices. -/
theorem deleted_file_missed_defect : ∃ ops : List MOp,
    parseConfigs mEnv (final ops).files mEnv.file = .invalid ∧ (final ops).loadError = false ∧
    (final (ops ++ [.reload 0])).loadError = false ∧ (final (ops ++ [.reload 0])).loads = (final ops).loads :=
  ⟨[.edit 1 (some (17, 0)), .edit 18 (some (18, 0)), .edit 5 (some (5, 0)), .reload 0, .edit 18 none], by decide +kernel⟩

/-- A change made before the first poll is not reported by the first poll, only by the second. -/
theorem first_poll_misses_change_defect : ∃ ops : List MOp,
    (∃ h, (final ops).watchHashes = some h ∧ ∃ x ∈ h, (final ops).files.get? x.1 ≠ x.2) ∧
    (final (ops ++ [.poll 0])).loads = (final ops).loads ∧ (final (ops ++ [.poll 0, .poll 0])).loads = (final ops).loads + 1 :=
  ⟨[.edit 1 (some (20, 0)), .reload 0, .edit 1 (some (21, 1))],
    ⟨[(1, some 20)], by decide +kernel, (1, some 20), by decide, by decide +kernel⟩, by decide +kernel, by decide +kernel⟩

/-- State of the next theorem. -/
def loopState (n : Nat) : Mgr :=
  { fs := [(1, (8, 0)), (10, (0, 0))], watchFile := some 1, watchHashes := some [(1, some 8), (9, none), (10, none)],
    stats := some [(1, 0), (10, 0)], valves := [(1, ⟨80, true⟩)], applied := [(1, true)], metric := (1, 1),
    lastGood := [(1, 8)], pushed := [(1, 80)], loads := n, trace := [(1, true), (9, false), (10, false)] }

/-- `mEnv` with the setting (0, 8) as the configuration of switch 1. -/
def loopEnv : MEnv := { mEnv with validate := fun t => (t.get? (0, 8)).map (fun v => [(1, v)]) }

/-- An optional include that exists but is invalid makes every poll load the configuration again, although nothing is ever
touched: after a history that ends in the first state, `k` polls make `k` loads. -/
theorem skipped_optional_reloads_forever_defect :
    Mgr.run loopEnv {} [.edit 1 (some (8, 0)), .edit 10 (some (0, 0)), .reload 0, .connect 1, .poll 0, .poll 0] = some (loopState 2) ∧
    ∀ k n, Mgr.run loopEnv (loopState n) (List.replicate k (.poll 0)) = some (loopState (n + k)) := by
  refine ⟨by decide +kernel, ?_⟩
  intro k
  induction k with
  | zero => intro n; rfl
  | succ k ih =>
    intro n
    rw [List.replicate_succ, Mgr.run]
    have : (loopState n).step loopEnv (.poll 0) = some (loopState (n + 1)) := by rfl
    rw [this]
    simp only
    rw [ih (n + 1)]
    congr 2
    omega

end Faucet.Config
