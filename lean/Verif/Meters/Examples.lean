import Verif.Meters.Rules

/-!
# Meters: a switch with two meters, and what goes wrong
-/

namespace Faucet.Meters.Ex
open Faucet.OF Faucet.FlowReorder

/-- A switch without flows, groups and meters. -/
def blank : Switch := ⟨fun _ => none, fun _ => none, fun _ => none⟩

/-- Nothing else in the batch. -/
def alone : Extra := ⟨id, fun l => List.Perm.refl l, false, [], fun _ hm => by cases hm⟩

/-- Two meters in use, and a limit on packets to FAUCET. -/
def two : Cfg := ⟨[(1, ⟨1, 100⟩), (2, ⟨2, 200⟩)], true, 50, 0⟩

/-- The rate of the second is changed. -/
def faster : Cfg := ⟨[(1, ⟨1, 100⟩), (2, ⟨2, 400⟩)], true, 50, 0⟩

/-- A third meter is added. -/
def three : Cfg := ⟨[(1, ⟨1, 100⟩), (2, ⟨2, 200⟩), (3, ⟨7, 300⟩)], true, 50, 0⟩

/-- No meters. -/
def bare : Cfg := ⟨[], false, 0, 0⟩

/-- One meter. -/
def one : Cfg := ⟨[(1, ⟨1, 100⟩)], true, 0, 0⟩

def fresh (c : Cfg) : St := ⟨c, false, blank⟩

/-- The rate of a meter of the switch after a history. -/
def rate (s : St) (h : List Ev) (id : Nat) : Option (Option Nat) := (run s h).map (fun s' => s'.sw.meters id)

theorem two_valid : Valid two := ⟨by decide, by decide, by decide, fun _ => rfl⟩
theorem faster_valid : Valid faster := ⟨by decide, by decide, by decide, fun _ => rfl⟩
theorem three_valid : Valid three := ⟨by decide, by decide, by decide, fun _ => rfl⟩
theorem bare_valid : Valid bare := ⟨by decide, by decide, by decide, fun h => absurd rfl h⟩
theorem one_valid : Valid one := ⟨by decide, by decide, by decide, fun _ => rfl⟩

/-- `meters_as_configured_partial` with a connection and a reload that adds a meter: its conditions hold, and the switch runs. -/
example : ∃ (h : List Ev) (s' : St), run (fresh two) h = some s' ∧ s'.running = true ∧ cfgAfter two h = three ∧
    (∀ new o e, .reload new o e ∈ h → Valid new) ∧
    (∀ h1 new o e h2, h = h1 ++ .reload new o e :: h2 → Last h2 → ∀ x ∈ (cfgAfter two h1).meters, x ∈ new.meters) ∧
    (∀ h1 e h2, h = h1 ++ .connect e :: h2 → Last h2 →
      (cfgAfter two h1).defined = true ∨ (cfgAfter two h1).packetin ≠ 0 ∨ (cfgAfter two h1).slowpath ≠ 0) ∧
    s'.sw.meters 7 = some 300 ∧ s'.sw.meters 2 = some 200 := by
  refine ⟨[.connect alone, .reload three false alone], ?_⟩
  cases hr : run (fresh two) [.connect alone, .reload three false alone] with
  | none =>
    have : (run (fresh two) [.connect alone, .reload three false alone]).isSome = true := by decide
    rw [hr] at this
    cases this
  | some s' =>
    have h7 : rate (fresh two) [.connect alone, .reload three false alone] 7 = some (some 300) := by decide
    have h2 : rate (fresh two) [.connect alone, .reload three false alone] 2 = some (some 200) := by decide
    have hrun : (run (fresh two) [.connect alone, .reload three false alone]).map (·.running) = some true := by decide
    rw [rate, hr] at h7 h2
    rw [hr] at hrun
    refine ⟨s', rfl, Option.some.inj hrun, rfl, ?_, ?_, ?_, Option.some.inj h7, Option.some.inj h2⟩
    · intro new o e hm
      simp only [List.mem_cons, List.not_mem_nil, or_false, reduceCtorEq, false_or, Ev.reload.injEq] at hm
      rw [hm.1]
      exact three_valid
    · intro h1 new o e h2 he _
      match h1, he with
      | [.connect _], he =>
        simp only [List.cons_append, List.nil_append, List.cons.injEq, Ev.reload.injEq] at he
        rw [← he.2.1.1]
        show ∀ x ∈ two.meters, x ∈ three.meters
        decide
      | _ :: _ :: _, he => simp at he
    · intro h1 e h2 he _
      match h1, he with
      | [], _ => exact Or.inl rfl
      | _ :: [], he => simp at he
      | _ :: _ :: _, he => simp at he

/-- `reload_drops_others`: its conditions hold when the rate of a meter is changed. -/
example : ∃ s s', s.cfg = two ∧ s.running = true ∧ (∃ x ∈ s.cfg.meters, x ∉ faster.meters) ∧
    step s (.reload faster false alone) = some s' ∧ s'.running = true := by
  cases hr : run (fresh two) [.connect alone] with
  | none =>
    have : (run (fresh two) [.connect alone]).isSome = true := by decide
    rw [hr] at this
    cases this
  | some s =>
    have hc : s.cfg = two := run_cfg hr
    have hrun : (run (fresh two) [.connect alone]).map (·.running) = some true := by decide
    rw [hr] at hrun
    cases hs : step s (.reload faster false alone) with
    | none =>
      have : (run (fresh two) [.connect alone, .reload faster false alone]).isSome = true := by decide
      rw [show [Ev.connect alone, Ev.reload faster false alone] = [.connect alone] ++ [.reload faster false alone] from rfl, run_snoc, hr,
        Option.bind_some, hs] at this
      cases this
    | some s' =>
      have hr' : (run (fresh two) [.connect alone, .reload faster false alone]).map (·.running) = some true := by decide
      rw [show [Ev.connect alone, Ev.reload faster false alone] = [.connect alone] ++ [.reload faster false alone] from rfl, run_snoc, hr,
        Option.bind_some, hs] at hr'
      exact ⟨s, s', hc, Option.some.inj hrun, by rw [hc]; decide, hs, Option.some.inj hr'⟩

/-- Changing the rate of one meter deletes the others from the switch, and the limit on packets to FAUCET with them, until the next cold
start: `del_meters` hands the id of the meter to `meterdel` as its first argument, which is the datapath, so all meters are deleted.
The rules that use them are gone too (`metered_rule_lost_defect`). -/
theorem other_meters_deleted_defect :
    Valid two ∧ Valid faster ∧
    rate (fresh two) [.connect alone] 1 = some (some 100) ∧ rate (fresh two) [.connect alone] 0xfffffffe = some (some 50) ∧
    rate (fresh two) [.connect alone, .reload faster false alone] 2 = some (some 400) ∧
    rate (fresh two) [.connect alone, .reload faster false alone] 1 = some none ∧ Asks faster 1 100 ∧
    rate (fresh two) [.connect alone, .reload faster false alone] 0xfffffffe = some none ∧ Asks faster 0xfffffffe 50 :=
  ⟨two_valid, faster_valid, by decide, by decide, by decide, by decide, Or.inr (Or.inr ⟨1, ⟨1, 100⟩, by decide, rfl, rfl⟩), by decide,
    Or.inl ⟨rfl, by decide, rfl⟩⟩

/-- A rule of an ACL: table 0, packets from port 1, the meter, and on to the next table. -/
def rule (g : Nat) : FlowMod := ⟨.add, 0, 20480, ⟨[⟨0, 1, none⟩], 0⟩, 0, [.meter g, .goto 1], none, 0, 0⟩

/-- A connection that sets up the rule. -/
def withRule (g : Nat) : Extra :=
  ⟨id, fun l => List.Perm.refl l, false, [.flow (rule g)], fun m hm x h => by
    rw [List.mem_singleton] at hm
    rw [hm] at h
    cases h⟩

/-- The flow of a switch after a history. -/
def flow (s : St) (h : List Ev) (t : Slot) : Option (Option Body) := (run s h).map (fun s' => s'.sw.flows t)

/-- A rule with a meter is lost when the rate of a meter, its own or another, is changed in the configuration: with the meters the switch
drops the rules that use them, and the ACL itself did not change, so no rule is sent again. Packets the rule let through (limited to its
rate) then go to the rules after it. -/
theorem metered_rule_lost_defect : ∀ g ∈ [1, 2],
    flow (fresh two) [.connect (withRule g)] (rule g).slot = some (some (rule g).body) ∧
    flow (fresh two) [.connect (withRule g), .reload faster false alone] (rule g).slot = some none := by decide

/-- `metered_rules_kept`: the rule is still there after a reload that adds a meter, with its conditions met. -/
example : flow (fresh two) [.connect (withRule 2), .reload three false alone] (rule 2).slot = some (some (rule 2).body) ∧
    (∀ x ∈ two.meters, x ∈ three.meters) ∧ Metered (rule 2).body ∧ ¬ Makes alone.others (rule 2).slot ∧
    ¬ Unmakes alone.others (rule 2).slot (rule 2).body :=
  ⟨by decide, by decide, ⟨2, by decide⟩, fun ⟨_, h, _⟩ => (by cases h), fun ⟨_, h, _⟩ => (by cases h)⟩

/-- A meter left on the switch by an earlier configuration keeps its rate: a cold start without meters does not delete those of the
switch, and a reload that then adds one with the same id is refused by the switch. -/
theorem stale_meter_defect : ∃ (sw : Switch), Valid bare ∧ Valid one ∧
    rate ⟨bare, false, sw⟩ [.connect alone, .reload one false alone] 1 = some (some 900) ∧ Asks one 1 100 :=
  ⟨{ blank with meters := fun i => if i = 1 then some 900 else none }, bare_valid, one_valid, by decide,
    Or.inr (Or.inr ⟨1, ⟨1, 100⟩, by decide, rfl, rfl⟩)⟩

/-- Nothing stops two meters from having the same id (`faucet/config_parser.py` 186-189): the switch refuses the second, and the rules
that name it get the rate of the first. -/
theorem same_id_defect : let c : Cfg := ⟨[(1, ⟨1, 100⟩), (2, ⟨1, 200⟩)], true, 0, 0⟩
    rate (fresh c) [.connect alone] 1 = some (some 100) ∧ Asks c 1 200 :=
  ⟨by decide, Or.inr (Or.inr ⟨2, ⟨1, 200⟩, by decide, rfl, rfl⟩)⟩

end Faucet.Meters.Ex
