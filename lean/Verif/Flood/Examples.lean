import Verif.Flood.Table

/-!
# Flooding: concrete cases

Instances that meet the hypotheses of the theorems, and the cases in which the code does not do what the properties say.
-/

namespace Faucet.Flood
open Faucet.OF Faucet.Actions

def blank : Switch := ⟨fun _ => none, fun _ => none, fun _ => none⟩

/-- A start rule that matches and that no other matching start rule beats. -/
def beats (k : Pkt) (prio : Nat) : OfMsg → Bool
  | .flow f => !hitsAll f.mtch.items k || f.priority ≤ prio
  | _ => true

theorem hit_of_boot {c : FCfg} {vs : List FVlan} {sw : Switch} {v : FVlan} {p : FPort} {k : Pkt}
    (S : Setup c vs sw v p k) {s : Slot} {b : Body} (hf : sw.flows s = some b) (ht : s.table = c.table.id)
    (hh : hitsAll s.items k = true) (hb : ∀ m ∈ bootMsgs c vs, beats k s.priority m = true) :
    Hit sw c.table.id k s b := by
  refine ⟨hf, ht, hh, ?_⟩
  intro s' b' hs' _ hh'
  obtain ⟨f, hfm, hfs, _⟩ := S.rule_of_flow hs'
  have := hb _ hfm
  rw [← hfs] at hh' ⊢
  show f.priority ≤ s.priority
  simp only [beats] at this
  rw [show hitsAll f.mtch.items k = true from hh'] at this
  simpa using this

/-- The switch after start. -/
def booted (c : FCfg) (vs : List FVlan) : Switch := blank.execAll (bootMsgs c vs)

theorem setup_booted {c : FCfg} {v : FVlan} {p : FPort} {k : Pkt} (hg : c.useGroups = false) (hv : v.vid < 4096) (hwf : WF v)
    (hp : p ∈ v.ports) (hup : p.physUp = true) (hk : InVlan v p k)
    (hd : ∀ x, k.hdr fEthDst = some x → x < 2 ^ 48) : Setup c [v] (booted c [v]) v p k where
  noGroups := hg
  ran := ⟨blank, _, fun _ => rfl, List.Perm.refl _, rfl⟩
  vids := by simpa using hv
  distinct := by simp
  wf := hwf
  vlan := by simp
  port := hp
  up := hup
  pkt := hk
  dst := hd

/-- A packet of a VLAN from a port to a destination. -/
def pkt (vid port dst : Nat) : Pkt :=
  ⟨fun f => if f = fInPort then some port else if f = fEthDst then some dst else if f = fEthType then some 0x800 else none, [(vid, 0)]⟩

def bcast : Nat := 0xFFFFFFFFFFFF

theorem pkt_dst {vid port dst : Nat} (h : dst < 2 ^ 48) : ∀ x, (pkt vid port dst).hdr fEthDst = some x → x < 2 ^ 48 := by
  intro x hx
  have : (pkt vid port dst).hdr fEthDst = some dst := rfl
  rw [this] at hx
  simp only [Option.some.injEq] at hx
  omega

theorem pkt_inVlan (v : FVlan) (p : FPort) (dst : Nat) : InVlan v p (pkt v.vid p.number dst) :=
  ⟨⟨0, [], rfl⟩, by simp [pkt]⟩

/-- A rule of the broadcast row. -/
def bcastRow : Row := ⟨false, none, some (0xFFFFFFFFFFFF, Encoding.macByteMask 6)⟩

def tbl : FCfg := { table := ⟨9, 5⟩ }

/-! ## A VLAN with a bundle, externals, a hairpin port and mirrors -/

def p1 : FPort := { number := 1 }
def p2 : FPort := { number := 2, mirror := [20] }
def p3 : FPort := { number := 3, lacp := 7, selected := true, actorUp := true }
def p4 : FPort := { number := 4, lacp := 7, selected := true, actorUp := true }
def p5 : FPort := { number := 5, external := true }
def p6 : FPort := { number := 6, external := true }
def p7 : FPort := { number := 7, hairpin := true, restricted := true }
def office : FVlan := { vid := 100, tagged := [p1, p3, p4, p5], untagged := [p2, p6, p7] }

theorem office_wf : WF office := ⟨by decide, by decide, by decide⟩

theorem office_p2_due : Due office p1 false false true p2 := by
  refine ⟨by decide, by decide, ⟨by decide, by simp⟩, ?_⟩
  refine ⟨?_, ?_, ?_, ?_⟩
  · intro h; exact absurd rfl h
  · intro _; exact Or.inl rfl
  · intro h; exact absurd h (by decide)
  · intro h; exact absurd h (by decide)

/-- The hypotheses of `flood_table` are met: a broadcast from port 1 hits a rule, and delivers. -/
example : ∃ s b, Setup tbl [office] (booted tbl [office]) office p1 (pkt 100 1 bcast) ∧
    Hit (booted tbl [office]) 9 (pkt 100 1 bcast) s b ∧ b.inst ≠ [] ∧
    ((runInst (booted tbl [office]) b.inst (pkt 100 1 bcast)).1.map (fun e => (e.port, e.tags))) =
      [(3, [(100, 2)]), (5, [(100, 2)]), (2, []), (7, []), (20, [])] := by
  have S : Setup tbl [office] (booted tbl [office]) office p1 (pkt 100 1 bcast) :=
    setup_booted rfl (by decide) office_wf (by decide) rfl (pkt_inVlan office p1 bcast) (pkt_dst (by decide))
  refine ⟨⟨9, bcastRow.priority + 1, bcastRow.items 100 (some 1)⟩, ⟨trimInst [.apply (office.portActs false p1 false true).1], 5, 0, 0⟩,
    S, hit_of_boot S (by decide +kernel) rfl (by decide +kernel) (by decide +kernel), by decide +kernel, by decide +kernel⟩

/-- A packet to a reserved destination. -/
example : Reserved (pkt 100 1 0x0180C200000E) := ⟨0x0180C200000E, rfl, by decide⟩

/-- The hypotheses of `vlan_flood_delivers` are met by port 1 of a plain VLAN. -/
def plain : FVlan := { vid := 5, untagged := [p1, p2, { number := 8 }] }
example : WF plain ∧ (plain.portActs false p1 false true).1 ≠ [] ∧
    sameSet ((outputNonOutput (plain.vlanActs false)).2.1.filter (fun n => n != 1)) (plain.portActs false p1 false true).2.1 = true :=
  ⟨⟨by decide, by decide, by decide⟩, by decide, by decide⟩

/-! ## What the code gets wrong -/

/-- A VLAN whose only members are two ports of one bundle. -/
def pair : FVlan := { vid := 200, tagged := [p3, p4] }

/-- Without per-port rules a broadcast that came in on one member of a bundle is sent back out through another member of
the same bundle: nobody is due a copy, so the port gets no rule of its own and the VLAN's rule applies. -/
theorem flood_back_into_lag_defect : ∃ s b, Setup tbl [pair] (booted tbl [pair]) pair p4 (pkt 200 4 bcast) ∧
    Hit (booted tbl [pair]) 9 (pkt 200 4 bcast) s b ∧ p3.lacp = p4.lacp ∧ p3.lacp ≠ 0 ∧
    copiesTo p3.number (runInst (booted tbl [pair]) b.inst (pkt 200 4 bcast)).1 ≠ [] := by
  have S : Setup tbl [pair] (booted tbl [pair]) pair p4 (pkt 200 4 bcast) :=
    setup_booted rfl (by decide) ⟨by decide, by decide, by decide⟩ (by decide) rfl (pkt_inVlan pair p4 bcast) (pkt_dst (by decide))
  refine ⟨⟨9, bcastRow.priority, bcastRow.items 200 none⟩, ⟨trimInst [.apply (pair.vlanActs false)], 5, 0, 0⟩, S,
    hit_of_boot S (by decide +kernel) rfl (by decide +kernel) (by decide +kernel), by decide, by decide, ?_⟩
  intro h
  have : (copiesTo p3.number (runInst (booted tbl [pair]) (trimInst [.apply (pair.vlanActs false)]) (pkt 200 4 bcast)).1).length = 1 := by
    decide +kernel
  rw [h] at this
  simp at this

/-- A VLAN whose only members are two external ports. -/
def outside : FVlan := { vid := 201, untagged := [p5, p6] }

/-- Likewise a broadcast from one external port is sent to another external port. -/
theorem flood_external_to_external_defect : ∃ s b, Setup tbl [outside] (booted tbl [outside]) outside p6 (pkt 201 6 bcast) ∧
    Hit (booted tbl [outside]) 9 (pkt 201 6 bcast) s b ∧ p5.external = true ∧ p6.external = true ∧
    copiesTo p5.number (runInst (booted tbl [outside]) b.inst (pkt 201 6 bcast)).1 ≠ [] := by
  have S : Setup tbl [outside] (booted tbl [outside]) outside p6 (pkt 201 6 bcast) :=
    setup_booted rfl (by decide) ⟨by decide, by decide, by decide⟩ (by decide) rfl (pkt_inVlan outside p6 bcast) (pkt_dst (by decide))
  refine ⟨⟨9, bcastRow.priority, bcastRow.items 201 none⟩, ⟨trimInst [.apply (outside.vlanActs false)], 5, 0, 0⟩, S,
    hit_of_boot S (by decide +kernel) rfl (by decide +kernel) (by decide +kernel), by decide, by decide, ?_⟩
  intro h
  have : (copiesTo p5.number (runInst (booted tbl [outside]) (trimInst [.apply (outside.vlanActs false)]) (pkt 201 6 bcast)).1).length = 1 := by
    decide +kernel
  rw [h] at this
  simp at this

/-- A tagged and an untagged port with the same mirror. -/
def mirrored : FVlan := { vid := 202, tagged := [{ number := 1, mirror := [20] }], untagged := [p2, { number := 8, mirror := [20] }, { number := 9 }] }
def p9 : FPort := { number := 9 }

/-- Without per-port rules the mirror port gets two copies of one broadcast. -/
theorem flood_mirror_twice_defect : ∃ s b, Setup tbl [mirrored] (booted tbl [mirrored]) mirrored p9 (pkt 202 9 bcast) ∧
    Hit (booted tbl [mirrored]) 9 (pkt 202 9 bcast) s b ∧
    (copiesTo 20 (runInst (booted tbl [mirrored]) b.inst (pkt 202 9 bcast)).1).length = 2 := by
  have S : Setup tbl [mirrored] (booted tbl [mirrored]) mirrored p9 (pkt 202 9 bcast) :=
    setup_booted rfl (by decide) ⟨by decide, by decide, by decide⟩ (by decide) rfl (pkt_inVlan mirrored p9 bcast) (pkt_dst (by decide))
  exact ⟨⟨9, bcastRow.priority, bcastRow.items 202 none⟩, ⟨trimInst [.apply (mirrored.vlanActs false)], 5, 0, 0⟩, S,
    hit_of_boot S (by decide +kernel) rfl (by decide +kernel) (by decide +kernel), by decide +kernel⟩

/-- An external port that is an unselected member of a bundle, and a plain external port. -/
def p10 : FPort := { number := 1, external := true, lacp := 3 }
def uplinks : FVlan := { vid := 203, tagged := [p10, { number := 2, external := true }], untagged := [p9] }

/-- If the lowest-numbered up external port is excluded for another reason, no external port gets the flood. -/
theorem flood_no_external_defect :
    (∃ q ∈ uplinks.ports, q.external = true ∧ q.physUp = true ∧ q.lacp = 0) ∧
    ∀ q ∈ uplinks.ports, q.external = true →
      copiesTo q.number (runActs (fun _ => none) (uplinks.portActs false p9 false true).1 (pkt 203 9 bcast)).1 = [] := by
  refine ⟨by decide, ?_⟩
  intro q hq he
  have h0 : (uplinks.portActs false p9 false true).1 = [] := by decide +kernel
  rw [h0]; rfl

/-- With group tables. -/
def grp : FCfg := { table := ⟨9, 5⟩, useGroups := true }

/-- With group tables the update that follows a port going down (delete and re-add the group, then modify the rules)
leaves a VLAN without flood rules: deleting the group removes the rules that use it, and a modify does not add. -/
theorem group_update_loses_flooding_defect :
    ((booted grp [plain]).flows ⟨9, bcastRow.priority, bcastRow.items 5 none⟩).isSome = true ∧
    (((booted grp [plain]).execAll (floodRules grp plain false true)).flows ⟨9, bcastRow.priority, bcastRow.items 5 none⟩) = none := by
  decide +kernel

/-- A port that takes no unknown-unicast floods. -/
def quiet : FPort := { number := 1, unicastFlood := false }
def mixed : FVlan := { vid := 204, untagged := [quiet, p2] }
def comb : FCfg := { table := ⟨9, 5⟩, combinatorial := true }

/-- With per-port rules such a port cannot originate one either: no rule matches its unknown-unicast packets. -/
theorem quiet_port_cannot_flood_defect : Setup comb [mixed] (booted comb [mixed]) mixed quiet (pkt 204 1 0x0e0000000001) ∧
    Miss (booted comb [mixed]) 9 (pkt 204 1 0x0e0000000001) ∧ Due mixed quiet true false true p2 := by
  have S : Setup comb [mixed] (booted comb [mixed]) mixed quiet (pkt 204 1 0x0e0000000001) :=
    setup_booted rfl (by decide) ⟨by decide, by decide, by decide⟩ (by decide) rfl (pkt_inVlan mixed quiet _) (pkt_dst (by decide))
  refine ⟨S, ?_, by decide, by decide, ⟨by decide, by decide⟩, ?_⟩
  · intro s b hs _
    obtain ⟨f, hf, hfs, _⟩ := S.rule_of_flow hs
    have key : ∀ m ∈ bootMsgs comb [mixed], (match m with | .flow f => hitsAll f.mtch.items (pkt 204 1 0x0e0000000001) | _ => false) = false := by
      decide +kernel
    have := key _ hf
    rw [← hfs]; exact this
  · refine ⟨?_, ?_, ?_, ?_⟩
    · intro h; exact absurd rfl h
    · intro _; exact Or.inl rfl
    · intro h; exact absurd h (by decide)
    · intro h; exact absurd h (by decide)

end Faucet.Flood
