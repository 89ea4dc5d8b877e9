import Verif.Reload.History

/-!
# Reloading: examples and defects
-/

namespace Faucet.Reload.Ex

/-! ## Two switches' worth of configuration -/

/-- An access port on a VLAN, by name. -/
def access (vlan : Nat) (acls : List Nat) : PortSec :=
  ⟨some (.name vlan), [], acls, [], false, false, false, false, 0, 0⟩

/-- A trunk. -/
def trunk (vlans : List Nat) : PortSec :=
  ⟨none, vlans.map .vid, [], [], false, false, false, false, 0, 0⟩

def vlan (name : Nat) (acls : List Nat) : VlanSec := ⟨name, acls, [], [], 0, 0⟩

/-- Four ports, three VLANs, two ACLs. -/
def base : Dp where
  ports := [(1, access 10 [1]), (2, access 10 []), (3, access 20 []), (4, trunk [100, 200])]
  vlans := [(100, vlan 10 []), (200, vlan 20 [2]), (300, vlan 30 [])]
  acls := [(1, ⟨1, []⟩), (2, ⟨1, []⟩)]
  meters := [(1, 1)]
  dpAcls := []
  routers := 0
  stack := none
  hardware := 0
  tableIds := [0, 1, 2]
  rest := 0

/-- Port 3 moves to VLAN 300, port 4 goes and port 5 comes, and ACL 1 changes. -/
def next : Dp := { base with
  ports := [(1, access 10 [1]), (2, access 10 []), (3, access 30 []), (5, trunk [200])]
  acls := [(1, ⟨2, []⟩), (2, ⟨1, []⟩)] }

/-- VLAN 10 is renumbered. -/
def renumbered : Dp := { base with vlans := [(101, vlan 10 []), (200, vlan 20 [2]), (300, vlan 30 []), (100, vlan 11 [])] }

def up : Nat → Bool := fun p => p != 2

/-- A decidable form of `Wf`. -/
def wfb (d : Dp) : Bool :=
  decide ((d.ports.map (·.1)).Pairwise (· < ·)) && decide ((d.vlans.map (·.1)).Nodup) &&
  decide ((d.vlans.map (·.2.name)).Nodup) && decide ((d.acls.map (·.1)).Nodup) &&
  d.ports.all (fun p => (p.2.native.toList ++ p.2.tagged).all (fun r =>
    match refVid d r with
    | some v => (get d.vlans v).isSome
    | none => false)) &&
  d.ports.all (fun p => p.2.aclsIn.all (fun a => (aclContent d a).isSome)) &&
  d.vlans.all (fun v => v.2.aclsIn.all (fun a => (aclContent d a).isSome))

theorem wf_of (d : Dp) (h : wfb d = true) : Wf d := by
  unfold wfb at h
  simp only [Bool.and_eq_true, decide_eq_true_eq, List.all_eq_true] at h
  obtain ⟨⟨⟨⟨⟨⟨h1, h2⟩, h3⟩, h4⟩, h5⟩, h6⟩, h7⟩ := h
  refine ⟨h1, h2, h3, h4, ?_, ?_, ?_⟩
  · intro p s hs r hr
    have := h5 (p, s) (get_mem hs) r (by rcases hr with h | h <;> simp [h])
    cases hv : refVid d r with
    | none => rw [hv] at this; simp at this
    | some v =>
      rw [hv] at this
      obtain ⟨vs, hvs⟩ := Option.isSome_iff_exists.1 this
      exact ⟨v, vs, rfl, hvs⟩
  · exact fun p s hs => h6 (p, s) (get_mem hs)
  · exact fun v s hs => h7 (v, s) (get_mem hs)

/-- A decidable form of `Quiet` for configurations without coprocessors. -/
def quietb (old new : Dp) : Bool :=
  new.dpAcls.all (fun a => decide (aclContent old a = aclContent new a)) &&
  new.vlans.all (fun v => v.2.aclsOut.all (fun a => decide (aclContent old a = aclContent new a))) &&
  (old.acls ++ new.acls).all (fun a => a.2.mirrors.isEmpty) &&
  decide (hasExternals old = hasExternals new) && new.ports.all (fun p => !p.2.copro)

theorem not_mirrored {d : Dp} (h : ∀ a ∈ d.acls, a.2.mirrors.isEmpty = true) (p : Nat) :
    aclMirrored d p = false := by
  unfold aclMirrored
  rw [List.any_eq_false]
  intro a _
  cases hg : aclContent d a with
  | none => simp
  | some s =>
    have := h _ (get_mem hg)
    rw [List.isEmpty_iff] at this
    simp only at this
    simp [this]

theorem quiet_of (old new : Dp) (h : quietb old new = true) : Quiet old new := by
  unfold quietb at h
  simp only [Bool.and_eq_true, decide_eq_true_eq, List.all_eq_true] at h
  obtain ⟨⟨⟨⟨h1, h2⟩, h3⟩, h4⟩, h5⟩ := h
  refine ⟨h1, fun v s hs => h2 (v, s) (get_mem hs), ?_, h4, ?_⟩
  · intro p
    rw [not_mirrored (fun a ha => h3 a (List.mem_append_left _ ha)),
      not_mirrored (fun a ha => h3 a (List.mem_append_right _ ha))]
  · intro p s hs hc
    have := h5 (p, s) (get_mem hs)
    simp [hc] at this

example : Wf base := wf_of _ (by decide +kernel)
example : Wf next := wf_of _ (by decide +kernel)
example : Wf renumbered := wf_of _ (by decide +kernel)
example : Quiet base next := quiet_of _ _ (by decide +kernel)

/-- The warm reload of the example. -/
example : configChanges base next = some
    ⟨[4], [3], [5], [1], [], [200, 300, 100, 200, 200], false, [], [], []⟩ := by decide +kernel

example : (reload base next up (cold base up)).map (·.1) = some .warm := by decide +kernel

/-- A history with a reload and port events to which the theorem applies. -/
example : ∃ w, Run next (setPort up 2 true) w := by
  cases h : reload base next up (cold base up) with
  | none => exact absurd (congrArg (Option.map (·.1)) h) (by decide +kernel)
  | some x =>
    exact ⟨_, .portUp _ _ _ 2 (.load base next up _ x.2 x.1 (.connect _ _ (wf_of _ (by decide +kernel)))
      (wf_of _ (by decide +kernel)) (fun _ => quiet_of _ _ (by decide +kernel)) h)⟩

/-- A renumbered VLAN takes its ports with it. -/
example : (configChanges base renumbered).map (·.chPorts) = some [1, 2, 4] := by decide +kernel

/-- The hypotheses of `unchanged_port_untouched`, for port 2. -/
example : (portChanges base next false).allPorts = false ∧
    get base.ports 2 = get next.ports 2 ∧ portVids next (access 10 []) = [100] := by decide +kernel

example : ¬ VlanDiffers base next 100 := by
  rintro ⟨n, h1, h2⟩
  have hn : get next.vlans 100 = some (vlan 10 []) := by decide +kernel
  rw [hn] at h1; cases h1
  rcases h2 (vlan 10 []) (by decide +kernel) with h | h | ⟨a, ha, -⟩
  · exact h rfl
  · exact h rfl
  · simp [vlan] at ha

/-- `changed_ports_exact` and `acl_ports_exact` have something on both sides. -/
example : 3 ∈ (portChanges base next false).chPorts ∧ 1 ∉ (portChanges base next false).chPorts ∧
    1 ∈ (portChanges base next false).aclPorts ∧ 2 ∉ (portChanges base next false).aclPorts := by
  decide +kernel

/-- The hypotheses of `unchanged_vlan_untouched`, for a VLAN beside one whose name changes. -/
def renamed : Dp := { base with
  ports := [(1, access 10 [1]), (2, access 10 []), (3, access 21 []), (4, trunk [100, 200])]
  vlans := [(100, vlan 10 []), (200, vlan 21 [2]), (300, vlan 30 [])] }

example : (configChanges base renamed).map (·.chVlans) = some [200] := by decide +kernel

example : (base.meters.map (·.1)).Nodup ∧ base.ports ≠ [] := by decide +kernel

/-- `change_noticed` on a section with an address in it. -/
example : ¬ SameConf (fun _ => false) [(1, .int 5), (2, .list (.cons (.addr 7) .nil))]
    [(1, .int 5), (2, .list (.cons (.addr 8) .nil))] := by
  intro h
  have := (change_noticed _ _ _ (by rfl) (fun s => decide (7 ≤ s)) (by simp [Plain, PlainVals])
    (by simp [Plain, PlainVals])).1 h 1 (by decide) (by decide) rfl
  simp at this

/-! ## Defects -/

/-- An ACL of the whole switch (`dp_acls`) is rewritten: nothing is restarted and the switch goes on
enforcing the old one. `get_config_changes` compares only the names in `dp_acls` (dp.py 1727-1731), and
of the changed ACLs only those of ports and `acls_in` of VLANs are acted on (dp.py 1501-1508,
1646-1649). -/
theorem dp_acl_change_missed_defect :
    ∃ old new : Dp, wfb old = true ∧ wfb new = true ∧
      (reload old new up (cold old up)).map (fun x => (x.1, x.2.dp)) = some (.none, [some ⟨1, []⟩]) ∧
      (cold new up).dp = [some ⟨2, []⟩] :=
  ⟨{ base with dpAcls := [9], acls := [(1, ⟨1, []⟩), (2, ⟨1, []⟩), (9, ⟨1, []⟩)] },
   { base with dpAcls := [9], acls := [(1, ⟨1, []⟩), (2, ⟨1, []⟩), (9, ⟨2, []⟩)] },
   by decide +kernel⟩

/-- The same for an ACL on what leaves a VLAN (`acls_out`): only `acls_in` is looked at
(dp.py 1515-1536). -/
theorem vlan_out_acl_change_missed_defect :
    ∃ old new : Dp, wfb old = true ∧ wfb new = true ∧
      (reload old new up (cold old up)).map (fun x => (x.1, x.2.vacl 300)) =
        some (.none, some ⟨[], [some ⟨1, []⟩]⟩) ∧
      (cold new up).vacl 300 = some ⟨[], [some ⟨2, []⟩]⟩ :=
  ⟨{ base with vlans := [(100, vlan 10 []), (200, vlan 20 [2]), (300, ⟨30, [], [9], [], 0, 0⟩)]
               acls := [(1, ⟨1, []⟩), (2, ⟨1, []⟩), (9, ⟨1, []⟩)] },
   { base with vlans := [(100, vlan 10 []), (200, vlan 20 [2]), (300, ⟨30, [], [9], [], 0, 0⟩)]
               acls := [(1, ⟨1, []⟩), (2, ⟨1, []⟩), (9, ⟨2, []⟩)] },
   by decide +kernel⟩

/-- An ACL on port 1 starts to mirror to port 3, which so becomes output only (dp.py 1127-1129).
Its own section is as it was: after the reload the switch still has the rules that let port 3's host
send. -/
theorem new_mirror_keeps_sending_defect :
    ∃ new : Dp, wfb new = true ∧
      (reload base new up (cold base up)).map (fun x => (x.1, (x.2.port 3).map (·.outOnly))) =
        some (.warm, some false) ∧
      ((cold new up).port 3).map (·.outOnly) = some true :=
  ⟨{ base with acls := [(1, ⟨2, [3]⟩), (2, ⟨1, []⟩)] }, by decide +kernel⟩

/-- One port becomes external (`loop_protect_external`): the other ports' rules, which should now mark
packets as coming from an external or internal port (valve_switch_standalone.py 564-577), are not
touched. -/
theorem externals_not_updated_defect :
    ∃ new : Dp, wfb new = true ∧
      (reload base new up (cold base up)).map (fun x => (x.1, (x.2.port 3).map (·.externals))) =
        some (.warm, some false) ∧
      ((cold new up).port 3).map (·.externals) = some true :=
  ⟨{ base with ports := [(1, ⟨some (.name 10), [], [1], [], true, false, false, false, 0, 0⟩),
      (2, access 10 []), (3, access 20 []), (4, trunk [100, 200])] }, by decide +kernel⟩

/-- A port is added to a switch with a coprocessor port: the coprocessor is not told how to send to
it (valve_coprocessor.py 63-90). -/
theorem copro_new_port_defect :
    ∃ old new : Dp, wfb old = true ∧ wfb new = true ∧
      (reload old new up (cold old up)).map (fun x => (x.1, (x.2.port 1).map (·.others))) =
        some (.warm, some [1, 3]) ∧
      ((cold new up).port 1).map (·.others) = some [1, 3, 5] :=
  ⟨{ base with ports := [(1, ⟨none, [], [], [], false, true, false, false, 0, 0⟩), (3, access 20 [])] },
   { base with ports := [(1, ⟨none, [], [], [], false, true, false, false, 0, 0⟩), (3, access 20 []),
      (5, access 30 [])] }, by decide +kernel⟩

/-- A switch loses its last stack port: the comparison asks for the hash of a stack that is not there
and raises (dp.py 1577-1579). -/
theorem unstack_raises_defect :
    ∃ old new : Dp, wfb old = true ∧ wfb new = true ∧ reload old new up (cold old up) = none := by
  refine ⟨{ base with stack := some (1, [(1, 1), (2, 1)]) }, base, by decide +kernel,
    by decide +kernel, ?_⟩
  unfold reload
  rw [show configChanges { base with stack := some (1, [(1, 1), (2, 1)]) } base = none by
    decide +kernel]
  rfl

/-- With a stack link down the running graph has fewer links than the one a reload builds from the
same configuration (stack.py 322-367, dp.py 1577-1588): a reload of the very same configuration restarts
the stack ports and with them their VLANs. -/
theorem same_config_restarts_defect :
    ∃ old new : Dp, old.ports = new.ports ∧ old.vlans = new.vlans ∧ old.acls = new.acls ∧
      old.rest = new.rest ∧ wfb old = true ∧
      (reload old new up (cold old up)).map (·.1) = some .warm ∧
      (configChanges old new).map (·.chPorts) = some [4] :=
  ⟨{ base with ports := [(1, access 10 [1]), (4, ⟨none, [], [], [], false, false, false, true, 0, 0⟩)]
               stack := some (1, [(1, 0), (2, 0)]) },
   { base with ports := [(1, access 10 [1]), (4, ⟨none, [], [], [], false, false, false, true, 0, 0⟩)]
               stack := some (1, [(1, 1), (2, 1)]) }, by decide +kernel⟩

/-- A port that is down has only its ACLs changed: the ACLs are put on the switch although the port
is down (valve.py 1670-1673). -/
theorem down_port_acl_defect :
    up 2 = false ∧ ∃ new : Dp, wfb new = true ∧
      (reload base new up (cold base up)).map (fun x => x.2.acl 2) =
        some (some ⟨[some ⟨1, []⟩], false⟩) ∧
      (cold new up).acl 2 = none :=
  ⟨rfl, { base with ports := [(1, access 10 [1]), (2, access 10 [1]), (3, access 20 []),
      (4, trunk [100, 200])] }, by decide +kernel⟩

/-- Two sections that differ only in a floating point setting, such as `port_table_scale_factor` or
`min_stack_health`, compare as the same: `_str_conf` makes `None` of both (conf.py 183-205). -/
theorem float_change_missed_defect (f g : Rat) (k : Nat) (r : Section) (ignore : Nat → Bool) :
    SameConf ignore ((k, .float f) :: r) ((k, .float g) :: r) := by
  unfold SameConf confKeys
  cases hi : ignore k <;> simp [isSub, strConf, hi]

/-- The same set, iterated in another order, compares as different (conf.py 198-199): with two VIPs whose hashes collide, listing them in another order is a change. -/
theorem set_order_counts_defect :
    ¬ SameConf (fun _ => false) [(1, .fset (.cons (.int 1) (.cons (.int 9) .nil)))]
      [(1, .fset (.cons (.int 9) (.cons (.int 1) .nil)))] := by
  simp [SameConf, confKeys, isSub, strConf, strVals, Val.isNone]

end Faucet.Reload.Ex
