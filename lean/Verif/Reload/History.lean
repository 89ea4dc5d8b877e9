import Verif.Reload.Props

/-!
# Histories of reloads and port events, and what a reload leaves alone
-/

namespace Faucet.Reload

/-! ## Histories -/

/-- Set one port's state. -/
def setPort (up : Nat → Bool) (p : Nat) (b : Bool) : Nat → Bool := fun q => if q = p then b else up q

/-- The states a switch can come to: it connects and is cold started, ports come up and go down
(`port_add`, `port_delete`, valve.py 887-895, 935-947), and configurations are loaded. -/
inductive Run : Dp → (Nat → Bool) → Sw → Prop
  | connect (d : Dp) (up : Nat → Bool) : Wf d → Run d up (cold d up)
  | portUp (d : Dp) (up : Nat → Bool) (w : Sw) (p : Nat) :
      Run d up w → Run d (setPort up p true) (portsAdd d [p] w)
  | portDown (d : Dp) (up : Nat → Bool) (w : Sw) (p : Nat) :
      Run d up w → Run d (setPort up p false) (portsDelete d [p] w)
  | load (old new : Dp) (up : Nat → Bool) (w w' : Sw) (r : Restart) :
      Run old up w → Wf new → (r ≠ .cold → Quiet old new) → reload old new up w = some (r, w') →
      Run new up w'

theorem one_contains (p q : Nat) : [p].contains q = decide (q = p) := by
  rw [Bool.eq_iff_iff, List.contains_iff_mem]; simp

theorem portUp_agrees {d : Dp} {up : Nat → Bool} {w : Sw} (hd : Wf d) (ag : Agrees d up w) (p : Nat) :
    Agrees d (setPort up p true) (portsAdd d [p] w) := by
  have hphys : ∀ q, (portsAdd d [p] w).phys q = (setPort up p true q && (get d.ports q).isSome) := by
    intro q
    show ([p].contains q && (get d.ports q).isSome || w.phys q) = _
    rw [one_contains, ag.phys]
    unfold setPort
    by_cases h : q = p <;> simp [h]
  refine ⟨?_, ?_, ?_, ?_, ag.dp, hphys⟩
  · intro q
    show (if [p].contains q && (get d.ports q).isSome then (get d.ports q).map (portIn d q)
      else w.port q) = if setPort up p true q then (get d.ports q).map (portIn d q) else none
    rw [one_contains, ag.port]
    show _ = _
    have e : (cold d up).port q = if up q then (get d.ports q).map (portIn d q) else none := rfl
    rw [e]
    unfold setPort
    by_cases h : q = p
    · cases hg : get d.ports q <;> simp [h]
    · simp [h]
  · intro q hq hs
    show (if [p].contains q && (get d.ports q).isSome then (get d.ports q).map (aclIn d q)
      else w.acl q) = if setPort up p true q then (get d.ports q).map (aclIn d q) else none
    rw [one_contains, hq, hs]
    unfold setPort at hq
    by_cases h : q = p
    · simp [h]
    · rw [if_neg h] at hq
      rw [ag.acl q hq hs]
      have e : (cold d up).acl q = if up q then (get d.ports q).map (aclIn d q) else none := rfl
      rw [e, hq]
      simp
  · intro v
    show (if (vlansOfPorts d [p]).contains v then
        (get d.vlans v).map (floodIn d (portsAdd d [p] w).phys v) else w.flood v) =
      (get d.vlans v).map (floodIn d (setPort up p true) v)
    split
    · apply flood_congr hd
      intro q s hs _
      rw [hphys, hs]; simp
    · rename_i hc
      rw [ag.flood]
      show (get d.vlans v).map (floodIn d up v) = _
      apply flood_congr hd
      intro q s hs hv
      unfold setPort
      have : q ≠ p := by
        rintro rfl
        exact hc (by rw [List.contains_iff_mem, mem_vlansOfPorts]; exact ⟨q, s, by simp, hs, hv⟩)
      rw [if_neg this]
  · intro v
    show (if (vlansOfPorts d [p]).contains v then (get d.vlans v).map (vaclIn d) else w.vacl v) =
      (get d.vlans v).map (vaclIn d)
    rw [ag.vacl]
    have e : (cold d up).vacl v = (get d.vlans v).map (vaclIn d) := rfl
    rw [e]
    split <;> rfl

theorem portDown_agrees {d : Dp} {up : Nat → Bool} {w : Sw} (hd : Wf d) (ag : Agrees d up w)
    (p : Nat) : Agrees d (setPort up p false) (portsDelete d [p] w) := by
  have hphys : ∀ q, (portsDelete d [p] w).phys q = (setPort up p false q && (get d.ports q).isSome) := by
    intro q
    show (!([p].contains q && (get d.ports q).isSome) && w.phys q) = _
    rw [one_contains, ag.phys]
    unfold setPort
    by_cases h : q = p
    · cases (get d.ports q).isSome <;> simp [h]
    · simp [h]
  refine ⟨?_, ?_, ?_, ag.vacl, ag.dp, hphys⟩
  · intro q
    show (if [p].contains q && (get d.ports q).isSome then none else w.port q) =
      if setPort up p false q then (get d.ports q).map (portIn d q) else none
    rw [one_contains, ag.port]
    have e : (cold d up).port q = if up q then (get d.ports q).map (portIn d q) else none := rfl
    rw [e]
    unfold setPort
    by_cases h : q = p
    · cases hg : get d.ports q <;> simp [h]
    · simp [h]
  · intro q hq hs
    show (if [p].contains q && (get d.ports q).isSome then none else w.acl q) =
      if setPort up p false q then (get d.ports q).map (aclIn d q) else none
    rw [one_contains, hq, hs]
    unfold setPort at hq
    by_cases h : q = p
    · simp [h] at hq
    · rw [if_neg h] at hq
      rw [ag.acl q hq hs]
      have e : (cold d up).acl q = if up q then (get d.ports q).map (aclIn d q) else none := rfl
      rw [e, hq]
      simp [h]
  · intro v
    show (if (vlansOfPorts d [p]).contains v then
        (get d.vlans v).map (floodIn d (portsDelete d [p] w).phys v) else w.flood v) =
      (get d.vlans v).map (floodIn d (setPort up p false) v)
    split
    · apply flood_congr hd
      intro q s hs _
      rw [hphys, hs]; simp
    · rename_i hc
      rw [ag.flood]
      show (get d.vlans v).map (floodIn d up v) = _
      apply flood_congr hd
      intro q s hs hv
      unfold setPort
      have : q ≠ p := by
        rintro rfl
        exact hc (by rw [List.contains_iff_mem, mem_vlansOfPorts]; exact ⟨q, s, by simp, hs, hv⟩)
      rw [if_neg this]

theorem run_wf {d : Dp} {up : Nat → Bool} {w : Sw} (h : Run d up w) : Wf d := by
  induction h with
  | connect d up hd => exact hd
  | portUp d up w p _ ih => exact ih
  | portDown d up w p _ ih => exact ih
  | load old new up w w' r _ hn _ _ _ => exact hn

/-- C30: after any history of port events and reloads the switch has the rules of a cold start with
the configuration now running and the ports now up, provided no reload changed what the comparison
overlooks. -/
theorem history_matches_cold_start_partial {d : Dp} {up : Nat → Bool} {w : Sw} (h : Run d up w) :
    Agrees d up w := by
  induction h with
  | connect d up _ => exact cold_agrees d up
  | portUp d up w p hr ih => exact portUp_agrees (run_wf hr) ih p
  | portDown d up w p hr ih => exact portDown_agrees (run_wf hr) ih p
  | load old new up w w' r hr hn hq hl ih =>
    exact reload_matches_cold_start_partial old new up w w' r (run_wf hr) hn hq ih hl

/-! ## What counts as a change -/

/-- A VLAN of the new configuration is not as it was: it is new, or its settings, its list of ACLs or
the contents of one of them changed. -/
def VlanDiffers (old new : Dp) (v : Nat) : Prop :=
  ∃ n, get new.vlans v = some n ∧ ∀ o, get old.vlans v = some o →
    o.core ≠ n.core ∨ o.aclsIn ≠ n.aclsIn ∨ ∃ a ∈ n.aclsIn, aclContent old a ≠ aclContent new a

theorem content_ne {old new : Dp} (hn : Wf new) {a : Nat} (hs : (aclContent new a).isSome) :
    a ∈ aclChanges old new ↔ aclContent old a ≠ aclContent new a := by
  constructor
  · intro h he
    unfold aclChanges at h
    unfold aclContent at he hs
    rw [List.mem_append] at h
    rcases h with h | h
    · rw [mem_added] at h
      rw [get_none.2 h.2] at he
      rw [← he] at hs; simp at hs
    · rw [mem_changed hn.acls] at h
      obtain ⟨o, n, h1, h2, h3⟩ := h
      rw [h1, h2] at he
      cases he
      simp [sameAcl] at h3
  · intro h
    by_contra hc
    exact h (content_eq hn hc hs)

theorem mem_vlanChanges {old new : Dp} (hn : Wf new) {v : Nat} :
    v ∈ vlanChanges old new ↔ VlanDiffers old new v := by
  constructor
  · intro h
    unfold vlanChanges at h
    rw [List.mem_append, List.mem_append, List.mem_filter] at h
    rcases h with (h | h) | ⟨h, hr⟩
    · rw [mem_added] at h
      obtain ⟨n, hg⟩ := get_of_mem h.1
      refine ⟨n, hg, fun o ho => ?_⟩
      exact absurd (mem_of_get ho) h.2
    · rw [mem_changed hn.vlans] at h
      obtain ⟨o, n, h1, h2, h3⟩ := h
      refine ⟨n, h2, fun o' ho' => ?_⟩
      rw [h1] at ho'; cases ho'
      left; simpa [sameVlan] using h3
    · rw [mem_sames hn.vlans] at h
      obtain ⟨o, n, h1, h2, -⟩ := h
      refine ⟨n, h2, fun o' ho' => ?_⟩
      rw [h1] at ho'; cases ho'
      unfold refChangedAt at hr
      rw [h1, h2] at hr
      unfold aclRefChanged at hr
      simp only [Bool.or_eq_true, List.any_eq_true, List.contains_iff_mem, decide_eq_true_eq] at hr
      right
      rcases hr with ⟨a, ha, hc⟩ | hr
      · exact .inr ⟨a, ha, (content_ne hn (hn.vlanAcls v n h2 a ha)).1 hc⟩
      · exact .inl hr
  · rintro ⟨n, hv, h⟩
    by_contra hc
    obtain ⟨o, h1, h2, h3, h4⟩ := vlan_same hn hc hv
    rcases h o h1 with h | h | ⟨a, ha, h⟩
    · exact h h2
    · exact h h3
    · rw [h3] at h4
      exact h (List.map_inj_left.1 h4 a ha)

/-- C29: the ports and VLANs reported as deleted or added are exactly those that only one of the
configurations has. -/
theorem deleted_added_exact (old new : Dp) (topo : Bool) (k : Nat) :
    (k ∈ (portChanges old new topo).delPorts ↔
      k ∈ old.ports.map (·.1) ∧ k ∉ new.ports.map (·.1)) ∧
    (k ∈ (portChanges old new topo).addPorts ↔
      k ∈ new.ports.map (·.1) ∧ k ∉ old.ports.map (·.1)) ∧
    (k ∈ (portChanges old new topo).delVlans ↔
      k ∈ old.vlans.map (·.1) ∧ k ∉ new.vlans.map (·.1)) :=
  ⟨mem_deleted, mem_added, mem_deleted⟩

/-- C29, C30: on a switch whose stack topology did not change, the ports taken down and set up again
by a reload are exactly those of the new configuration whose settings or mirroring changed or that
are on a VLAN that changed. -/
theorem changed_ports_exact (old new : Dp) (hn : Wf new)
    (hall : (portChanges old new false).allPorts = false) (p : Nat) :
    p ∈ (portChanges old new false).chPorts ↔
      ∃ n, get new.ports p = some n ∧
        ((∃ o, get old.ports p = some o ∧
            (o.core ≠ n.core ∨ mirrorAttr old p o ≠ mirrorAttr new p n)) ∨
          ∃ v ∈ portVids new n, VlanDiffers old new v) := by
  have ha := allPorts_false hall
  constructor
  · intro h
    rw [chPorts_eq ha, changedByVlan_eq ha] at h
    simp only [List.mem_append, List.mem_filter] at h
    rcases h with (h | h) | ⟨h, hm⟩
    · unfold changedOwn at h
      simp only [Bool.false_eq_true, if_false, List.append_nil] at h
      obtain ⟨o, n, h1, h2, h3⟩ := (mem_changed hn.nodup).1 h
      exact ⟨n, h2, .inl ⟨o, h1, .inl (by simpa [samePort] using h3)⟩⟩
    · obtain ⟨n, h1, v, hv, hc⟩ := (mem_portsOn hn).1 h
      exact ⟨n, h1, .inr ⟨v, hv, (mem_vlanChanges hn).1 hc⟩⟩
    · unfold samePorts at h
      obtain ⟨o, n, h1, h2, -⟩ := (mem_sames hn.nodup).1 (List.mem_filter.1 h).1
      unfold mirrorMoved at hm
      rw [h1, h2] at hm
      exact ⟨n, h2, .inl ⟨o, h1, .inr (by simpa using hm)⟩⟩
  · rintro ⟨n, hp, h⟩
    by_contra hc
    rcases h with ⟨o, ho, h⟩ | ⟨v, hv, hd⟩
    · obtain ⟨st, hm, -⟩ := stays_of hn ha ho hp hc
      rcases h with h | h
      · exact h st.core
      · exact h hm
    · rw [chPorts_eq ha, changedByVlan_eq ha] at hc
      simp only [List.mem_append, not_or] at hc
      exact hc.1.2 ((mem_portsOn hn).2 ⟨n, hp, v, hv, (mem_vlanChanges hn).2 hd⟩)

/-- C30: of the other ports, those whose ACLs are loaded again are exactly those whose list of ACLs,
or the contents of one of them, changed. -/
theorem acl_ports_exact (old new : Dp) (hn : Wf new)
    (hall : (portChanges old new false).allPorts = false) (p : Nat)
    (hp : p ∉ (portChanges old new false).chPorts) :
    p ∈ (portChanges old new false).aclPorts ↔
      ∃ o n, get old.ports p = some o ∧ get new.ports p = some n ∧
        (o.aclsIn ≠ n.aclsIn ∨ ∃ a ∈ n.aclsIn, aclContent old a ≠ aclContent new a) := by
  have ha := allPorts_false hall
  rw [aclPorts_eq ha, List.mem_filter]
  constructor
  · rintro ⟨h, hr⟩
    obtain ⟨o, n, h1, h2, -⟩ := (mem_sames hn.nodup).1 (List.mem_filter.1 h).1
    refine ⟨o, n, h1, h2, ?_⟩
    unfold refChangedAt at hr
    rw [h1, h2] at hr
    unfold aclRefChanged at hr
    simp only [Bool.or_eq_true, List.any_eq_true, List.contains_iff_mem, decide_eq_true_eq] at hr
    rcases hr with ⟨a, ha', hc⟩ | hr
    · exact .inr ⟨a, ha', (content_ne hn (hn.portAcls p n h2 a ha')).1 hc⟩
    · exact .inl hr
  · rintro ⟨o, n, h1, h2, h⟩
    obtain ⟨-, -, hs⟩ := stays_of hn ha h1 h2 hp
    refine ⟨hs, ?_⟩
    unfold refChangedAt
    rw [h1, h2]
    unfold aclRefChanged
    simp only [Bool.or_eq_true, List.any_eq_true, List.contains_iff_mem, decide_eq_true_eq]
    rcases h with h | ⟨a, ha', h⟩
    · exact .inr h
    · exact .inl ⟨a, ha', (content_ne hn (hn.portAcls p n h2 a ha')).2 h⟩

/-- C30: a port whose settings, mirroring, VLANs and ACLs did not change keeps its rules through a
warm reload and is sent nothing. -/
theorem unchanged_port_untouched (old new : Dp) (up : Nat → Bool) (w : Sw) (hn : Wf new)
    (hall : (portChanges old new false).allPorts = false) (p : Nat) (o n : PortSec)
    (ho : get old.ports p = some o) (hp : get new.ports p = some n)
    (hcore : o.core = n.core) (hm : mirrorAttr old p o = mirrorAttr new p n)
    (hv : ∀ v ∈ portVids new n, ¬ VlanDiffers old new v)
    (ha : o.aclsIn = n.aclsIn) (hc : ∀ a ∈ n.aclsIn, aclContent old a = aclContent new a) :
    (p ∉ (portChanges old new false).delPorts ∧ p ∉ (portChanges old new false).chPorts ∧
      p ∉ (portChanges old new false).addPorts ∧ p ∉ (portChanges old new false).aclPorts) ∧
    (warm old new (portChanges old new false) up w).port p = w.port p ∧
    (warm old new (portChanges old new false) up w).acl p = w.acl p ∧
    (warm old new (portChanges old new false) up w).phys p = w.phys p := by
  have h2 : p ∉ (portChanges old new false).chPorts := by
    rw [changed_ports_exact old new hn hall]
    rintro ⟨n', hp', h⟩
    rw [hp] at hp'; cases hp'
    rcases h with ⟨o', ho', h⟩ | ⟨v, h, h'⟩
    · rw [ho] at ho'; cases ho'
      rcases h with h | h
      · exact h hcore
      · exact h hm
    · exact hv v h h'
  have h4 : p ∉ (portChanges old new false).aclPorts := by
    rw [acl_ports_exact old new hn hall p h2]
    rintro ⟨o', n', ho', hp', h⟩
    rw [ho] at ho'; cases ho'
    rw [hp] at hp'; cases hp'
    rcases h with h | ⟨a, h, h'⟩
    · exact h ha
    · exact h' (hc a h)
  have h1 : p ∉ (portChanges old new false).delPorts := by
    show p ∉ deleted old.ports new.ports
    rw [mem_deleted]; exact fun h => h.2 (mem_of_get hp)
  have h3 : p ∉ (portChanges old new false).addPorts := by
    show p ∉ added old.ports new.ports
    rw [mem_added]; exact fun h => h.2 (mem_of_get ho)
  refine ⟨⟨h1, h2, h3, h4⟩, ?_⟩
  generalize portChanges old new false = c at h1 h2 h3 h4
  have b1 : c.delPorts.contains p = false := by simpa using h1
  have b2 : c.chPorts.contains p = false := by simpa using h2
  have b4 : c.aclPorts.contains p = false := by simpa using h4
  have b5 : (c.addPorts.filter up).contains p = false := by
    rw [← Bool.not_eq_true, List.contains_iff_mem, List.mem_filter]; exact fun h => h3 h.1
  have b6 : (c.chPorts.filter up).contains p = false := by
    rw [← Bool.not_eq_true, List.contains_iff_mem, List.mem_filter]; exact fun h => h2 h.1
  refine ⟨?_, ?_, ?_⟩
  · simp only [warm, portsDelete, portsAdd, updateVlans, addVlans, delVlans, aclRestart, cloneState,
      b1, b2, b5, b6, Bool.false_and, Bool.false_eq_true, if_false]
  · simp only [warm, portsDelete, portsAdd, updateVlans, addVlans, delVlans, aclRestart, cloneState,
      b1, b2, b4, b5, b6, Bool.false_and, Bool.false_eq_true, if_false]
  · simp only [warm, portsDelete, portsAdd, updateVlans, addVlans, delVlans, aclRestart, cloneState,
      b1, b2, b5, b6, Bool.false_and, Bool.false_or, Bool.not_false, Bool.true_and, hp,
      Option.isSome_some]

/-- C30: a VLAN that did not change and that no port joined, left or was added to or deleted from is
not among the VLANs set up again; with stacking, which floods every VLAN on every stack port, the
ports that are added, deleted or changed must not be stack ports. -/
theorem unchanged_vlan_untouched (old new : Dp) (hn : Wf new) (v : Nat)
    (hv : ¬ VlanDiffers old new v)
    (hports : ∀ p, (∃ o, get old.ports p = some o ∧ v ∈ portVids old o) ↔
      ∃ n, get new.ports p = some n ∧ v ∈ portVids new n)
    (hso : ∀ p o, get old.ports p = some o → o.stacked = true → (get new.ports p).isSome)
    (hs : ∀ p n, get new.ports p = some n → n.stacked = true → (get old.ports p).isSome)
    (hst : ∀ p o n, get old.ports p = some o → get new.ports p = some n → o.stacked = n.stacked) :
    v ∉ (portChanges old new false).chVlans := by
  show v ∉ allVlanChanges old new false
  unfold allVlanChanges
  rw [List.mem_filter]
  rintro ⟨h, -⟩
  split at h
  · exact hv ((mem_vlanChanges hn).1 h)
  · simp only [List.mem_append, List.mem_flatMap] at h
    rcases h with ((h | ⟨p, -, h⟩) | ⟨p, hp, h⟩) | ⟨p, hp, h⟩
    · exact hv ((mem_vlanChanges hn).1 h)
    · unfold vlansMoved at h
      cases ho : get old.ports p with
      | none => rw [ho] at h; simp at h
      | some o =>
        cases hp : get new.ports p with
        | none => rw [ho, hp] at h; simp at h
        | some n =>
          rw [ho, hp] at h
          simp only [hst p o n ho hp, if_true, List.append_nil, List.mem_append, List.mem_filter,
            Bool.not_eq_true', ← Bool.not_eq_true, List.contains_iff_mem] at h
          rcases h with ⟨h1, h2⟩ | ⟨h1, h2⟩
          · obtain ⟨n', hn', hx⟩ := (hports p).1 ⟨o, ho, h1⟩
            rw [hp] at hn'; cases hn'
            exact h2 hx
          · obtain ⟨n', hn', hx⟩ := (hports p).2 ⟨n, hp, h1⟩
            rw [ho] at hn'; cases hn'
            exact h2 hx
    · rw [mem_deleted] at hp
      obtain ⟨o, ho⟩ := get_of_mem hp.1
      have hnone := get_none.2 hp.2
      unfold vlansOf at h
      rw [ho] at h
      have hns : o.stacked = false := by
        by_contra hc
        have := hso p o ho (by simpa using hc)
        rw [hnone] at this; simp at this
      simp only [hns, Bool.false_eq_true, if_false, List.append_nil] at h
      obtain ⟨n', hn', -⟩ := (hports p).1 ⟨o, ho, h⟩
      rw [hnone] at hn'; simp at hn'
    · rw [mem_added] at hp
      obtain ⟨n, hnn⟩ := get_of_mem hp.1
      have hnone := get_none.2 hp.2
      unfold vlansOf at h
      rw [hnn] at h
      have hns : n.stacked = false := by
        by_contra hc
        have := hs p n hnn (by simpa using hc)
        rw [hnone] at this; simp at this
      simp only [hns, Bool.false_eq_true, if_false, List.append_nil] at h
      obtain ⟨n', hn', -⟩ := (hports p).2 ⟨n, hnn, h⟩
      rw [hnone] at hn'; simp at hn'

/-! ## The same configuration again -/

theorem nil_of {l : List Nat} (h : ∀ x, x ∉ l) : l = [] := List.eq_nil_iff_forall_not_mem.2 h

theorem no_vlan_differs {d : Dp} (v : Nat) : ¬ VlanDiffers d d v := by
  rintro ⟨n, h1, h2⟩
  rcases h2 n h1 with h | h | ⟨a, -, h⟩ <;> exact h rfl

/-- C29: loading the configuration that is running changes nothing: no port, VLAN or meter is
reported, no restart is called for and the rules stay. -/
theorem identical_reload_silent (d : Dp) (up : Nat → Bool) (w : Sw) (hd : Wf d)
    (hm : (d.meters.map (·.1)).Nodup) (hp : d.ports ≠ []) :
    ∃ w', reload d d up w = some (.none, w') ∧ configChanges d d = some ⟨[], [], [], [], [], [], false,
      [], [], []⟩ ∧
      w'.port = w.port ∧ w'.acl = w.acl ∧ w'.flood = w.flood ∧ w'.vacl = w.vacl ∧ w'.dp = w.dp := by
  have hself : ∀ s : PortSec, samePort s s = true := fun s => by simp [samePort]
  have e1 : deleted d.ports d.ports = [] := nil_of (fun x h => (mem_deleted.1 h).2 (mem_deleted.1 h).1)
  have e2 : added d.ports d.ports = [] := nil_of (fun x h => (mem_added.1 h).2 (mem_added.1 h).1)
  have e3 : deleted d.vlans d.vlans = [] := nil_of (fun x h => (mem_deleted.1 h).2 (mem_deleted.1 h).1)
  have e5 : changed samePort d.ports d.ports = [] := nil_of (fun x h => by
    obtain ⟨o, n, h1, h2, h3⟩ := (mem_changed hd.nodup).1 h
    rw [h1] at h2; cases h2
    rw [hself] at h3; simp at h3)
  have e6 : changedOwn d d false = [] := by unfold changedOwn; rw [e5]; rfl
  have e7 : (samePorts d d false).isEmpty = false := by
    cases hl : d.ports with
    | nil => exact absurd hl hp
    | cons x r =>
      have : x.1 ∈ samePorts d d false := by
        unfold samePorts
        rw [List.mem_filter]
        refine ⟨(mem_sames hd.nodup).2 ?_, by rw [e6]; simp⟩
        have hx : get d.ports x.1 = some x.2 := (get_some hd.nodup).2 (by rw [hl]; exact .head _)
        exact ⟨x.2, x.2, hx, hx, hself _⟩
      cases hs : samePorts d d false with
      | nil => rw [hs] at this; simp at this
      | cons => rfl
  have e8 : vlanChanges d d = [] := nil_of (fun v h => no_vlan_differs v ((mem_vlanChanges hd).1 h))
  have e9 : portsOn d [] = [] := nil_of (fun p h => by
    obtain ⟨s, -, v, -, hv⟩ := (mem_portsOn hd).1 h; simp at hv)
  have e10 : changedByVlan d d false = [] := by
    unfold changedByVlan; rw [e7, e6, e8, e9]; rfl
  have e11 : allChanged d d false = false := by
    unfold allChanged; rw [e7, e8]; rfl
  have e12 : (samePorts d d false).filter (mirrorMoved d d) = [] := nil_of (fun p h => by
    have := (List.mem_filter.1 h).2
    unfold mirrorMoved at this
    cases hg : get d.ports p <;> rw [hg] at this <;> simp at this)
  have ea : aclChanges d d = [] := nil_of (fun a h => by
    unfold aclChanges at h
    rw [List.mem_append] at h
    rcases h with h | h
    · exact (mem_added.1 h).2 (mem_added.1 h).1
    · obtain ⟨o, n, h1, h2, h3⟩ := (mem_changed hd.acls).1 h
      rw [h1] at h2; cases h2
      simp [sameAcl] at h3)
  have e13 : (samePorts d d false).filter
      (refChangedAt PortSec.aclsIn (aclChanges d d) d.ports d.ports) = [] := nil_of (fun p h => by
    have := (List.mem_filter.1 h).2
    rw [ea] at this
    unfold refChangedAt at this
    cases hg : get d.ports p with
    | none => rw [hg] at this; simp at this
    | some s => rw [hg] at this; simp [aclRefChanged] at this)
  have e14 : allVlanChanges d d false = [] := by
    unfold allVlanChanges; rw [e11, e8, e10, e1, e2]; rfl
  have e15 : deleted d.meters d.meters = [] := nil_of (fun x h => (mem_deleted.1 h).2 (mem_deleted.1 h).1)
  have e16 : added d.meters d.meters = [] := nil_of (fun x h => (mem_added.1 h).2 (mem_added.1 h).1)
  have e17 : changed (fun a b => decide (a = b)) d.meters d.meters = [] := nil_of (fun x h => by
    obtain ⟨o, n, h1, h2, h3⟩ := (mem_changed hm).1 h
    rw [h1] at h2; cases h2
    simp at h3)
  have epc : portChanges d d false = ⟨[], [], [], [], [], [], false, [], [], []⟩ := by
    unfold portChanges
    rw [e11, e10, e14, e1, e2, e3, e15, e16, e17]
    simp only [Bool.false_eq_true, if_false]
    rw [e12, e13]
    rfl
  have et : topologyChanged d d = some false := by
    unfold topologyChanged
    rcases d.stack with _ | ⟨a, b⟩
    · rfl
    · simp
  have er : rootChanged d d = false := by
    unfold rootChanged
    rcases d.stack with _ | ⟨a, b⟩
    · rfl
    · simp
  have ec : configChanges d d = some ⟨[], [], [], [], [], [], false, [], [], []⟩ := by
    unfold configChanges
    rw [er, et]
    simp [epc]
  refine ⟨cloneState d w, ?_, ec, rfl, rfl, rfl, rfl, rfl⟩
  unfold reload
  rw [ec]
  simp [restartOf, pipelineChange, anyChange]

end Faucet.Reload
