import Verif.Features.AclFit
import Verif.L2.ReloadExamples
import Verif.Routed.Examples
import Verif.Acl.Examples

/-!
# Rules that fit: cases that meet the hypotheses, and defects
-/

namespace Faucet.Features.Ex
open Faucet.OF
open Faucet.Pipeline (Tbl Conf)
open Faucet.Acl (Acl Rule)
open Faucet.Acl (encEx encEx_ok)

/-! ## A switch without routing -/

/-- All sorts of settings: mirror, LAG, external port, hairpin, group table. -/
def confF : L2.Cfg where
  ports := [{ number := 1, native := some 100, mirror := [4], lacp := 1 }, { number := 2, native := some 200, restricted := true },
    { number := 3, tagged := [100, 200], receiveLldp := true, loopProtectExternal := true }, { number := 4, outputOnly := true },
    { number := 5, native := some 100, hairpinUnicast := true }]
  vlans := [{ vid := 100 }, { vid := 200 }]
  groupTable := true
  restrictedBcast := true

theorem confF_ok : CfgOk confF := ⟨fun _ => rfl, rfl, by decide, by decide⟩

def bootF : L2.Ctl × List OfMsg :=
  (L2.Ex.play confF (L2.Ctl.init, []) (.connect 1000 [1, 2, 3, 4, 5] (fun _ => some (true, true)))).getD (L2.Ctl.init, [])

def startF : Option (List OfMsg × L2.Ctl) := confF.react L2.Ctl.init (.connect 1000 [1, 2, 3, 4, 5] (fun _ => some (true, true)))
def learnF : Option (List OfMsg × L2.Ctl) := startF.bind (fun x => confF.react x.2 (.packetIn 1001 ⟨3, [(100, 5)], 0x20⟩))

def flowCount (ms : List OfMsg) : Nat := (ms.filter (fun m => match m with | .flow _ => true | _ => false)).length

/-- Connecting makes many rules, and learning a host some more; all fit and are accepted. -/
example : ∃ ms st ms' st', startF = some (ms, st) ∧ 40 < flowCount ms ∧ AllFit (setup confF) ms ∧
    AllAccepted (loadTables ⟨true, true⟩ (setup confF)) ms ∧ confF.react st (.packetIn 1001 ⟨3, [(100, 5)], 0x20⟩) = some (ms', st') ∧
    1 < flowCount ms' ∧ AllFit (setup confF) ms' ∧ AllAccepted (loadTables ⟨true, true⟩ (setup confF)) ms' := by
  have e : ∃ x, startF = some x ∧ 40 < flowCount x.1 := by
    have h : (match startF with | some x => decide (40 < flowCount x.1) | none => false) = true := by decide +kernel
    cases hs : startF with
    | none => rw [hs] at h; cases h
    | some x => rw [hs] at h; exact ⟨x, rfl, of_decide_eq_true h⟩
  obtain ⟨⟨ms, st⟩, hs, hc⟩ := e
  have e : ∃ x, learnF = some x ∧ 1 < flowCount x.1 := by
    have h : (match learnF with | some x => decide (1 < flowCount x.1) | none => false) = true := by decide +kernel
    cases hs : learnF with
    | none => rw [hs] at h; cases h
    | some x => rw [hs] at h; exact ⟨x, rfl, of_decide_eq_true h⟩
  obtain ⟨⟨ms', st'⟩, hl, hc'⟩ := e
  have hl : startF.bind (fun x => confF.react x.2 (.packetIn 1001 ⟨3, [(100, 5)], 0x20⟩)) = some (ms', st') := hl
  rw [hs, Option.bind_some] at hl
  exact ⟨ms, st, ms', st', hs, hc, rules_fit_partial confF_ok hs, rules_accepted_partial confF_ok rfl (fun _ => rfl) hs, hl, hc',
    rules_fit_partial confF_ok hl, rules_accepted_partial confF_ok rfl (fun _ => rfl) hl⟩

/-! ## Reload -/

/-- Port 2 moves to VLAN 100. -/
def confG : L2.Cfg where
  ports := [{ number := 1, native := some 100, mirror := [4], lacp := 1 }, { number := 2, native := some 100, restricted := true },
    { number := 3, tagged := [100, 200], receiveLldp := true, loopProtectExternal := true }, { number := 4, outputOnly := true },
    { number := 5, native := some 100, hairpinUnicast := true }]
  vlans := [{ vid := 100 }, { vid := 200 }]
  groupTable := true
  restrictedBcast := true

def reloadF : Option (List OfMsg × L2.Ctl) :=
  startF.bind (fun x => L2.reload confF confG (L2.Ex.secs [2] []) (L2.changes confF confG (L2.Ex.secs [2] [])) (fun _ _ => none) x.2)

example : ∃ st ms st', L2.reload confF confG (L2.Ex.secs [2] []) (L2.changes confF confG (L2.Ex.secs [2] [])) (fun _ _ => none) st =
      some (ms, st') ∧ 10 < flowCount ms ∧
    (∀ f, .flow f ∈ ms → DeletesAll f ∨ FitsTable (setup confF) f ∨ FitsTable (setup confG) f) ∧
    AllAccepted (loadTables ⟨true, true⟩ (setup confF)) ms := by
  have e : ∃ x, reloadF = some x ∧ 10 < flowCount x.1 := by
    have h : (match reloadF with | some x => decide (10 < flowCount x.1) | none => false) = true := by decide +kernel
    cases hs : reloadF with
    | none => rw [hs] at h; cases h
    | some x => rw [hs] at h; exact ⟨x, rfl, of_decide_eq_true h⟩
  obtain ⟨⟨ms, st'⟩, hl, hc⟩ := e
  obtain ⟨x, _, hl⟩ := Option.bind_eq_some_iff.1 (show startF.bind (fun x => L2.reload confF confG (L2.Ex.secs [2] [])
    (L2.changes confF confG (L2.Ex.secs [2] [])) (fun _ _ => none) x.2) = some (ms, st') from hl)
  have okG : CfgOk confG := ⟨fun _ => rfl, rfl, by decide, by decide⟩
  exact ⟨x.2, ms, st', hl, hc, fun f hf => reload_fits_partial confF_ok okG hl hf,
    reload_accepted_partial confF_ok okG rfl rfl (fun _ => rfl) (fun _ => rfl) (by decide +kernel) hl⟩

/-! ## Routing -/

open Faucet.Routed.Ex (confR confR_ok askR tame_ask envX PR) in
/-- A host asks the router, and gets a route. -/
example (b : Bool) : 2 ≤ flowCount (Route.flowMods ((confR b).mgr.step envX (fun _ => {}) askR).2) ∧
    AllFit (setup (confR b).l2) (Route.flowMods ((confR b).mgr.step envX (fun _ => {}) askR).2) ∧
    AllAccepted (loadTables ⟨true, true⟩ (setup (confR b).l2)) (Route.flowMods ((confR b).mgr.step envX (fun _ => {}) askR).2) :=
  ⟨by cases b <;> decide +kernel, route_rules_fit_partial (routeSetup rfl) (declsOk _) (confR_ok b).conf envX (tame_ask b),
    route_rules_accepted_partial (routeSetup rfl) (sep _) (fun _ => rfl) (confR_ok b).conf envX (tame_ask b)⟩

open Faucet.Routed.Ex (confR) in
example (b : Bool) : 10 < flowCount ((confR b).evMsgs (.connect 1000 [1, 2, 3] (fun _ => none))) ∧
    AllFit (setup (confR b).l2) ((confR b).evMsgs (.connect 1000 [1, 2, 3] (fun _ => none))) ∧
    AllAccepted (loadTables ⟨true, true⟩ (setup (confR b).l2)) ((confR b).evMsgs (.connect 1000 [1, 2, 3] (fun _ => none))) := by
  have ok : CfgOk (confR b).l2 := ⟨fun h => absurd h (by cases b <;> decide), rfl, by cases b <;> decide, by cases b <;> decide⟩
  exact ⟨by cases b <;> decide +kernel, (vip_rules_fit_partial (hw := ⟨true, true⟩) ok rfl _).1, (vip_rules_fit_partial ok rfl _).2 rfl⟩

/-! ## ACLs -/

/-- ACL 1 for ports, with output and a set field; ACL 2 for ports; ACL 3 for VLANs coming in; ACL 4 going out. -/
def kx : AclConf where
  acls := [(1, ⟨[{ fields := [(.new fEthType, .int 0x800)], actions := some { allow := some 1, mirror := some 4 } },
                 { fields := [(.old fEthType, .int 0x806)],
                   actions := some { output := some (.dict { vlanVid := some ⟨100, none⟩, setFields := [(fEthDst, 9)], port := some 5 }) } }], false⟩),
           (2, ⟨[{ fields := [(.new fEthSrc, .int 77)] }, { actions := some { allow := some 1 } }], false⟩),
           (3, ⟨[{ fields := [(.new fEthSrc, .int 78)], actions := some { meter := some 8, allow := some 1 } }], false⟩),
           (4, ⟨[{ fields := [(.new fEthDst, .int 79)] }], false⟩)]
  vlans := [{ vid := 100, aclsIn := [3], aclsOut := [4] }, { vid := 200 }, { vid := 300, aclsIn := [3] }]
  ports := [{ number := 1, aclsIn := [1, 2] }, { number := 2 }, { number := 3, aclsIn := [2] }, { number := 4, outputOnly := true }]
  meters := [(8, 1)]

def bx : Dict Nat Built := (resolveAcls encEx kx).getD []

theorem resolved {k : AclConf} (h : (resolveAcls encEx k).isSome = true) : resolveAcls encEx k = some ((resolveAcls encEx k).getD []) := by
  obtain ⟨x, hx⟩ := Option.isSome_iff_exists.1 h
  rw [hx]; rfl

theorem inexact_all {k : AclConf} (h : k.acls.all (fun e => !e.2.exactMatch) = true) :
    ∀ n a, k.acls.get? n = some a → a.exactMatch = false := by
  intro n a ha
  have := List.all_eq_true.1 h _ (Dict.mem_of_get? ha)
  simpa using this

theorem kx_ok : AclOk encEx kx bx where
  resolved := resolved (by decide +kernel)
  accepted := by decide +kernel
  one := by
    have h : kx.uses.all (fun u => kx.uses.all (fun v => !(u.name == v.name) || (u.vid.isSome == v.vid.isSome && u.port.isSome == v.port.isSome))) = true := by
      decide +kernel
    intro u hu v hv e
    have := List.all_eq_true.1 (List.all_eq_true.1 h u hu) v hv
    rw [e] at this
    simpa using this
  inexact := inexact_all (by decide)
  ports := by decide
  vlans := by decide
  dp := by decide

example : ∃ ms, Acl.addPort encEx (aclMgr {} kx) (kx.port { number := 1, aclsIn := [1, 2] }) = some ms ∧
    AllFit (aclSetup {} false false bx kx) (Acl.delPort (aclMgr {} kx) (kx.port { number := 1, aclsIn := [1, 2] }) ++ ms) :=
  port_acls_fit_partial encEx_ok kx_ok (by simp [kx])

example : ((Acl.addPort encEx (aclMgr {} kx) (kx.port { number := 1, aclsIn := [1, 2] })).map flowCount) = some 4 := by decide +kernel

/-- Port 2 has no ACL: one rule allows all. -/
example : ∃ ms, Acl.addPort encEx (aclMgr {} kx) (kx.port { number := 2 }) = some ms ∧
    AllFit (aclSetup {} false false bx kx) (Acl.delPort (aclMgr {} kx) (kx.port { number := 2 }) ++ ms) :=
  port_acls_fit_partial encEx_ok kx_ok (by simp [kx])

example : ∃ ms, Acl.addVlan encEx (aclMgr {} kx) (kx.vlan { vid := 100, aclsIn := [3], aclsOut := [4] }) = some ms ∧
    AllFit (aclSetup {} false false bx kx) (Acl.delVlan (aclMgr {} kx) (kx.vlan { vid := 100, aclsIn := [3], aclsOut := [4] }) ++ ms) :=
  vlan_acls_fit_partial encEx_ok kx_ok (by simp [kx])

/-- ACLs of the datapath. -/
def ky : AclConf where
  acls := kx.acls
  ports := [{ number := 1 }]
  dpAcls := [2, 1]

theorem ky_ok : AclOk encEx ky ((resolveAcls encEx ky).getD []) where
  resolved := resolved (by decide +kernel)
  accepted := by decide +kernel
  one := by
    have h : ky.uses.all (fun u => !u.vid.isSome && !u.port.isSome) = true := by decide +kernel
    intro u hu v hv _
    have h1 := List.all_eq_true.1 h u hu
    have h2 := List.all_eq_true.1 h v hv
    simp only [Bool.and_eq_true, Bool.not_eq_true'] at h1 h2
    rw [h1.1, h1.2, h2.1, h2.2]
    exact ⟨rfl, rfl⟩
  inexact := inexact_all (by decide)
  ports := by decide
  vlans := by decide
  dp := by decide

example : ∃ ms, Acl.initTables encEx (aclMgr {} ky) = some ms ∧
    AllFit (aclSetup {} false false ((resolveAcls encEx ky).getD []) ky) ms := dp_acls_fit_partial encEx_ok ky_ok

example : ((Acl.initTables encEx (aclMgr {} ky)).map flowCount) = some 4 := by decide +kernel

/-! ## Defects -/

/-- Making one of the flow mods raises an exception. -/
def Raises (s : Setup) (ms : List OfMsg) : Prop :=
  ∃ f, .flow f ∈ ms ∧ ∃ t ∈ Pipeline.tables s.conf, f.table = t.id ∧ verify (s.decl t.name) f = false

def badFlow (s : Setup) : OfMsg → Bool
  | .flow f => (Pipeline.tables s.conf).any (fun t => f.table == t.id && !verify (s.decl t.name) f)
  | _ => false

def bad (s : Setup) (r : Option (List OfMsg)) : Bool := (r.getD []).any (badFlow s)

theorem raises_of {s : Setup} {r : Option (List OfMsg)} (h : bad s r = true) : ∃ ms, r = some ms ∧ Raises s ms := by
  cases r with
  | none => cases h
  | some ms =>
    obtain ⟨m, hm, hb⟩ := List.any_eq_true.1 (show ms.any (badFlow s) = true from h)
    cases m with
    | flow f =>
      obtain ⟨t, ht, e⟩ := List.any_eq_true.1 hb
      simp only [Bool.and_eq_true, beq_iff_eq, Bool.not_eq_true'] at e
      exact ⟨ms, rfl, f, hm, t, ht, e⟩
    | _ => cases hb

def confClass : L2.Cfg where
  ports := [{ number := 1, native := some 100 }]
  vlans := [{ vid := 100 }]
  useClassification := true

/-- With `use_classification: true` the first rule for the classification table raises: the table is declared without match
fields, but gets the rules that filter by source. The switch cannot be configured when it connects. -/
theorem classification_defect : ∃ ms, (confClass.react L2.Ctl.init (.connect 1000 [1] (fun _ => none))).map (·.1) = some ms ∧
    Raises (setup confClass) ms := raises_of (by decide +kernel)

def confZero : L2.Cfg where
  ports := [{ number := 1, native := some 100, receiveLldp := true }]
  vlans := [{ vid := 100 }]
  dpHighest := 0

/-- `highest_priority` (also `high_priority`) can be configured as 0; the rules with that priority raise when they are made. -/
theorem priority_zero_defect : ∃ ms, (confZero.react L2.Ctl.init (.connect 1000 [1] (fun _ => none))).map (·.1) = some ms ∧
    Raises (setup confZero) ms := raises_of (by decide +kernel)

/-- ACL 1 on VLAN 100 and on port 1. -/
def kBoth : AclConf where
  acls := [(1, ⟨[{ fields := [(.new fEthSrc, .int 77)] }], false⟩)]
  vlans := [{ vid := 100, aclsIn := [1] }]
  ports := [{ number := 1, aclsIn := [1] }]

/-- An ACL used on a VLAN and on a port is accepted, but what it matches is found anew for each use, and the last counts: the
table for VLAN ACLs is declared with `in_port` and without `vlan_vid`, and making the rules of the VLAN raises. -/
theorem acl_on_vlan_and_port_defect : ∃ b, resolveAcls encEx kBoth = some b ∧ kBoth.accepted = true ∧
    ∃ ms, Acl.addVlan encEx (aclMgr {} kBoth) (kBoth.vlan { vid := 100, aclsIn := [1] }) = some ms ∧
      Raises (aclSetup {} false false b kBoth) ms :=
  ⟨_, resolved (by decide +kernel), by decide +kernel, raises_of (by decide +kernel)⟩

/-- An exact match ACL on port 1; port 2 has none. -/
def kExact : AclConf where
  acls := [(1, ⟨[{ fields := [(.new fEthSrc, .int 77)], actions := some { allow := some 1 } }], true⟩)]
  ports := [{ number := 1, aclsIn := [1] }, { number := 2 }]

/-- With an exact match ACL on one port, the rule for a port without ACL matches only the port, and making it raises. -/
theorem exact_acl_defect : ∃ b, resolveAcls encEx kExact = some b ∧ kExact.accepted = true ∧
    ∃ ms, Acl.addPort encEx (aclMgr {} kExact) (kExact.port { number := 2 }) = some ms ∧
      Raises (aclSetup {} false false b kExact) ms :=
  ⟨_, resolved (by decide +kernel), by decide +kernel, raises_of (by decide +kernel)⟩

/-- An exact match ACL with rules that match different fields. -/
def kFields : AclConf where
  acls := [(1, ⟨[{ fields := [(.new fEthSrc, .int 77)] }, { fields := [(.new fEthSrc, .int 77), (.new fEthDst, .int 78)] }], true⟩)]
  ports := [{ number := 1, aclsIn := [1] }]

/-- That the rules of an exact match ACL all match the same fields is not checked when the configuration is read; making them
raises. -/
theorem exact_acl_fields_defect : ∃ b, resolveAcls encEx kFields = some b ∧ kFields.accepted = true ∧
    ∃ ms, Acl.addPort encEx (aclMgr {} kFields) (kFields.port { number := 1, aclsIn := [1] }) = some ms ∧
      Raises (aclSetup {} false false b kFields) ms :=
  ⟨_, resolved (by decide +kernel), by decide +kernel, raises_of (by decide +kernel)⟩

/-! ### Too many rules -/

def ruleM : Rule := { fields := [(.new fEthSrc, .int 77)] }

/-- An ACL of `n` rules, on port 1. -/
def kMany (n : Nat) : AclConf where
  acls := [(1, ⟨List.replicate n ruleM, false⟩)]
  ports := [{ number := 1, aclsIn := [1] }]

theorem last_rule {c : Acl.Ctx} {r : Rule} {items : List MatchItem} (hm : Acl.ruleMatch encEx c r = some items)
    (hi : Acl.ruleInst c r = some ([], [])) (hx : c.exact = false) (hd : c.flowdel = false) : ∀ (n base : Nat),
    ∃ ms, Acl.buildList encEx c base (List.replicate (n + 1) r) = some ms ∧
      OfMsg.flow (Acl.aclFlow c.table items (base - n) [] r.cookie) ∈ ms := by
  have one : ∀ p, Acl.buildRule encEx c p r = some [.flow (Acl.aclFlow c.table items p [] r.cookie)] := by
    intro p
    unfold Acl.buildRule
    rw [hm, hi]
    simp [hx, hd]
  intro n
  induction n with
  | zero =>
    intro base
    refine ⟨[.flow (Acl.aclFlow c.table items base [] r.cookie)], ?_, by simp⟩
    show (Acl.buildRule encEx c base r).bind _ = _
    rw [one]
    rfl
  | succ n ih =>
    intro base
    obtain ⟨ms, h1, h2⟩ := ih (base - 1)
    refine ⟨.flow (Acl.aclFlow c.table items base [] r.cookie) :: ms, ?_, ?_⟩
    · rw [List.replicate_succ]
      show (Acl.buildRule encEx c base r).bind (fun a => (Acl.buildList encEx c (base - 1) (List.replicate (n + 1) r)).map (fun b => a ++ b)) = _
      rw [one, h1]
      rfl
    · rw [show base - (n + 1) = base - 1 - n by omega]
      exact List.mem_cons_of_mem _ h2

def aclM (n : Nat) : Acl := ⟨List.replicate n ruleM, false⟩

theorem matchM : Acl.matchFromDict encEx (Acl.withVlan none (Acl.withPort (some 1) ruleM.fields)) =
    some [⟨fInPort, 1, none⟩, ⟨fEthSrc, 77, none⟩] := by decide

theorem namedM (n : Nat) : (kMany n).named [1] = [aclM n] := rfl

theorem resolvedM (n : Nat) : ∃ b, resolveAcls encEx (kMany (n + 1)) = some b := by
  obtain ⟨ms, h1, _⟩ := last_rule (c := wildcardCtx [] (aclM (n + 1)) none (some 1)) (r := ruleM)
    (items := [⟨fInPort, 1, none⟩, ⟨fEthSrc, 77, none⟩]) matchM rfl rfl rfl n 65535
  have h2 : Acl.buildAcls encEx (wildcardCtx [] (aclM (n + 1)) none (some 1)) [aclM (n + 1)] = some ms := by
    rw [Acl.buildAcls_eq, List.flatMap_cons, List.flatMap_nil, List.append_nil]
    exact h1
  have h3 : resolveOne encEx (kMany (n + 1)) [] ⟨1, none, some 1⟩ = some (Dict.set [] 1 (ms.foldl noteMsg {})) := by
    show ((Acl.buildAcls encEx (wildcardCtx [] (aclM (n + 1)) none (some 1)) [aclM (n + 1)]).map
      (fun ms => ms.foldl noteMsg {})).map (fun x => Dict.set [] 1 x) = _
    rw [h2]
    rfl
  refine ⟨Dict.set [] 1 (ms.foldl noteMsg {}), ?_⟩
  show (resolveOne encEx (kMany (n + 1)) [] ⟨1, none, some 1⟩).bind _ = _
  rw [h3]
  rfl

/-- An ACL, or the ACLs of a port together, can have any number of rules. The priority goes down with each; that of rule 20481
is 0, and making it raises. -/
theorem many_rules_defect (n : Nat) (hn : 20480 < n) : ∃ b, resolveAcls encEx (kMany n) = some b ∧ (kMany n).accepted = true ∧
    ∃ ms, Acl.addPort encEx (aclMgr {} (kMany n)) ((kMany n).port { number := 1, aclsIn := [1] }) = some ms ∧
      Raises (aclSetup {} false false b (kMany n)) ms := by
  obtain ⟨n, rfl⟩ : ∃ m, n = m + 1 := ⟨n - 1, by omega⟩
  obtain ⟨b, hb⟩ := resolvedM n
  obtain ⟨ms, h1, h2⟩ := last_rule (c := Acl.portCtx (aclMgr {} (kMany (n + 1))) ⟨0, 0⟩ ((kMany (n + 1)).port { number := 1, aclsIn := [1] }))
    (r := ruleM) (items := [⟨fInPort, 1, none⟩, ⟨fEthSrc, 77, none⟩]) matchM rfl rfl rfl n 20480
  rw [show 20480 - n = 0 by omega] at h2
  refine ⟨b, hb, rfl, ms, ?_, _, h2, { name := .portAcl, id := 0, next := [.vlan, .ethDst, .flood] }, ?_, rfl, rfl⟩
  · show Acl.buildAcls encEx _ ((kMany (n + 1)).named [1]) = _
    rw [namedM, Acl.buildAcls_eq, List.flatMap_cons, List.flatMap_nil, List.append_nil]
    exact h1
  · show _ ∈ Pipeline.tables { portAcls := true }
    decide

/-! ### Metadata -/

def confEgress : L2.Cfg where
  ports := [{ number := 1, native := some 100 }, { number := 2, native := some 100 }]
  vlans := [{ vid := 100 }]
  egressPipeline := true

def learnE : Option (List OfMsg) :=
  (confEgress.react L2.Ctl.init (.connect 1000 [1, 2] (fun _ => none))).bind (fun x =>
    (confEgress.react x.2 (.packetIn 1001 ⟨1, [(100, 0)], 0x20⟩)).map (·.1))

def writesMeta : OfMsg → Bool
  | .flow f => f.cmd == .add && f.priority != 0 && f.inst.any (fun i => kindOfInst i == .writeMetadata)
  | _ => false

theorem no_write (h : Hardware) (s : Setup) : ∀ x ∈ loadTables h s, InstKind.writeMetadata ∉ x.insts := by
  intro x hx hm
  obtain ⟨t, _, rfl⟩ := List.mem_map.1 hx
  have hm : InstKind.writeMetadata ∈ instKinds (s.decl t.name) (t.next.map (Pipeline.idOf s.conf)) := hm
  unfold instKinds at hm
  simp only [List.mem_append, List.mem_singleton] at hm
  rcases hm with (hm | hm) | hm
  · cases hm
  · split at hm
    · cases hm
    · rw [List.mem_singleton] at hm; cases hm
  · split at hm
    · rw [List.mem_singleton] at hm; cases hm
    · cases hm

/-- With `egress_pipeline` the rules for hosts write metadata, but `load_tables` announces that instruction for no table: a
switch that keeps to the table features refuses every host. -/
theorem metadata_unannounced_defect (hw : Hardware) : ∃ ms, learnE = some ms ∧
    ∃ f, .flow f ∈ ms ∧ Puts f ∧ ¬ Accepted (loadTables hw (setup confEgress)) f := by
  have e : ((learnE.getD []).any writesMeta) = true := by decide +kernel
  cases hl : learnE with
  | none => rw [hl] at e; cases e
  | some ms =>
    rw [hl] at e
    obtain ⟨m, hm, hw'⟩ := List.any_eq_true.1 (show ms.any writesMeta = true from e)
    cases m with
    | flow f =>
      refine ⟨ms, rfl, f, hm, ?_⟩
      simp only [writesMeta, Bool.and_eq_true, beq_iff_eq, bne_iff_ne, List.any_eq_true] at hw'
      obtain ⟨⟨hc, hp⟩, i, hi, hk⟩ := hw'
      refine ⟨Or.inl hc, fun h => ?_⟩
      obtain ⟨⟨x, hx, ex⟩, ha⟩ := h
      have := (ha x hx ex).insts (fun h => hp h.1) i hi
      rw [hk] at this
      exact no_write _ _ x hx this
    | _ => cases hw'

end Faucet.Features.Ex
