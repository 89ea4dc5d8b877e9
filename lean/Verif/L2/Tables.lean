import Verif.L2.Spec
import Verif.Learn.Spec
import Mathlib.Data.List.Nodup

/-! # One standalone switch: facts about the tables -/

namespace Faucet.L2
open Faucet.OF Faucet.Pipeline

/-- The tables of a datapath of this area. -/
abbrev cf (e h k r : Bool) : Conf := { egress := e, hairpin := h, classification := k, ipv4 := r }

theorem conf_eq (c : Cfg) : c.conf = cf c.egressPipeline c.hasHairpin c.useClassification c.ipv4 := rfl

theorem vlan_zero (e h k r : Bool) : idOf (cf e h k r) .vlan = 0 := by revert e h k r; decide

theorem others_pos (e h k r : Bool) : idOf (cf e h k r) .ethSrc ≠ 0 ∧ idOf (cf e h k r) .ethDst ≠ 0 ∧ idOf (cf e h k r) .flood ≠ 0 ∧
    idOf (cf e h k r) (classTable (cf e h k r)) ≠ 0 ∧ idOf (cf e h k r) (outTable (cf e h k r)) ≠ 0 ∧
    (h = true → idOf (cf e h k r) .hairpin ≠ 0) ∧
    (e = true → idOf (cf e h k r) .egress ≠ 0 ∧ idOf (cf e h k r) (outputTo (cf e h k r)) ≠ 0) := by
  revert e h k r; decide

theorem goto_class (e h k r : Bool) :
    goto (cf e h k r) .vlan (classTable (cf e h k r)) = some (.goto (idOf (cf e h k r) (classTable (cf e h k r)))) := by
  revert e h k r; decide

theorem goto_out (e h k r : Bool) :
    goto (cf e h k r) .ethSrc (outTable (cf e h k r)) = some (.goto (idOf (cf e h k r) (outTable (cf e h k r)))) := by
  revert e h k r; decide

/-- What a default rule is. -/
def okDefault (m : Option OfMsg) : Bool :=
  match m with
  | some (.flow f) => f.inst == [] || (f.table != 0 && match f.inst with | [.goto n] => n != 0 | _ => false)
  | _ => false

theorem defaults_ok (e h k r : Bool) : ∀ t ∈ tables (cf e h k r), okDefault (defaultFlow (cf e h k r) t) = true := by
  revert e h k r; decide

theorem learn_tables (e h k r : Bool) :
    idOf (cf e h k r) .ethSrc ≠ idOf (cf e h k r) .ethDst ∧ idOf (cf e h k r) (classTable (cf e h k r)) ≠ idOf (cf e h k r) .ethDst ∧
    idOf (cf e h k r) .ethSrc ≠ tableAll ∧ idOf (cf e h k r) .ethDst ≠ tableAll ∧ idOf (cf e h k r) (classTable (cf e h k r)) ≠ tableAll ∧
    (h = true → idOf (cf e h k r) .hairpin ≠ tableAll ∧ idOf (cf e h k r) .hairpin ≠ idOf (cf e h k r) .ethSrc ∧
      idOf (cf e h k r) .hairpin ≠ idOf (cf e h k r) .ethDst ∧
      idOf (cf e h k r) .hairpin ≠ idOf (cf e h k r) (classTable (cf e h k r))) := by
  revert e h k r; decide

theorem hostPort_number (c : Cfg) (n : Nat) : (c.hostPort n).number = n := by
  unfold Cfg.hostPort
  cases h : c.find n with
  | none => rfl
  | some p =>
    have := List.find?_some h
    simpa [LPort.toHost] using this

theorem find_some {c : Cfg} {n : Nat} {p : LPort} (h : c.find n = some p) : p ∈ c.ports ∧ p.number = n := by
  refine ⟨List.mem_of_find?_eq_some h, ?_⟩
  have := List.find?_some h
  simpa using this

theorem find_of_mem {c : Cfg} (hw : c.WF) {p : LPort} (h : p ∈ c.ports) : c.find p.number = some p := by
  cases hf : c.find p.number with
  | none => have := List.find?_eq_none.1 hf p h; simp at this
  | some q =>
    obtain ⟨hq, hn⟩ := find_some hf
    rw [List.inj_on_of_nodup_map hw.nodup hq h hn]

theorem port_inj {c : Cfg} (hw : c.WF) {p q : LPort} (hp : p ∈ c.ports) (hq : q ∈ c.ports) (h : p.number = q.number) : p = q :=
  List.inj_on_of_nodup_map hw.nodup hp hq h

theorem vlan_some {c : Cfg} {n : Nat} {v : LVlan} (h : c.vlan n = some v) : v ∈ c.vlans ∧ v.vid = n := by
  refine ⟨List.mem_of_find?_eq_some h, ?_⟩
  have := List.find?_some h
  simpa using this

theorem learn_wf (c : Cfg) : c.learn.WF where
  portNum := hostPort_number c
  srcDst := (learn_tables c.egressPipeline c.hasHairpin c.useClassification c.ipv4).1
  classDst := (learn_tables c.egressPipeline c.hasHairpin c.useClassification c.ipv4).2.1
  srcReal := (learn_tables c.egressPipeline c.hasHairpin c.useClassification c.ipv4).2.2.1
  dstReal := (learn_tables c.egressPipeline c.hasHairpin c.useClassification c.ipv4).2.2.2.1
  classReal := (learn_tables c.egressPipeline c.hasHairpin c.useClassification c.ipv4).2.2.2.2.1
  hairpinOk := by
    intro t ht
    have hh : c.hasHairpin = true ∧ t = c.table .hairpin := by
      simp only [Cfg.learn, Cfg.hairpinTable] at ht
      split at ht
      · rename_i h; exact ⟨h, (Option.some.inj ht).symm⟩
      · cases ht
    obtain ⟨h1, h2, h3, h4⟩ := (learn_tables c.egressPipeline c.hasHairpin c.useClassification c.ipv4).2.2.2.2.2 hh.1
    rw [hh.2]
    exact ⟨h1, h2, h3, h4, rfl⟩
  dstCookie := rfl
  classCookie := rfl

end Faucet.L2
