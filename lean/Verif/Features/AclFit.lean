import Verif.Features.AclProps

/-!
# `ValveAclManager`: rules that fit

C70, for port, VLAN and egress ACLs. The rules can be made, without exception, and fit.
-/

namespace Faucet.Features
open Faucet.OF
open Faucet.Acl (Acl Enc Ctx Rule Key Val matchStep matchFromDict keyField withPort withVlan ruleMatch ruleInst EncOk aclPriority)
open Faucet.Pipeline (Tbl Conf)

/-! ## Fields that all rules have -/

theorem last_some {f : Nat} {key : Key} (hf : keyField key = some f) : ∀ {d : Dict Key Val}, key ∈ d.keys → Acl.lastVal d f ≠ none
  | (k, v) :: d, h => by
    unfold Acl.lastVal
    rcases List.mem_cons.1 h with h | h
    · have h : key = k := h
      rw [← h, hf, if_pos rfl]
      cases Acl.lastVal d f <;> simp
    · have := last_some hf (d := d) h
      cases hl : Acl.lastVal d f with
      | none => exact absurd hl this
      | some w => simp

theorem has_field {enc : Enc} {d : Dict Key Val} {items : List MatchItem} (h : matchFromDict enc d = some items) {f : Nat} {key : Key}
    (hk : key ∈ d.keys) (hf : keyField key = some f) : ∃ i ∈ items, i.field = f := by
  unfold matchFromDict at h
  obtain ⟨kw, h1, rfl⟩ := Option.map_eq_some_iff.1 h
  obtain ⟨_, h2, _⟩ := Acl.foldlM_kw enc d [] kw h1 f
  obtain ⟨v, hv⟩ := Option.ne_none_iff_exists'.1 (last_some hf hk)
  obtain ⟨x, _, hx⟩ := h2 v hv
  exact ⟨⟨f, x.1, x.2⟩, List.mem_map.2 ⟨(f, x), mem_isort.2 (Dict.mem_of_get? hx), rfl⟩, rfl⟩

theorem found_port {enc : Enc} {c : Ctx} {r : Rule} {x : Built} {items : List MatchItem} {inst : List Inst}
    (h : Found enc c r x items inst) (hp : c.port.isSome = true) : Covers x.fields (fInPort, false) := by
  obtain ⟨n, hn⟩ := Option.isSome_iff_exists.1 hp
  have hm := h.mtch
  unfold ruleMatch at hm
  rw [hn] at hm
  obtain ⟨i, hi, e⟩ := has_field hm (f := fInPort) (key := .new fInPort) (by
    cases c.vlan with
    | none => exact Dict.mem_keys_set.2 (Or.inl rfl)
    | some v => exact Dict.mem_keys_set.2 (Or.inr (Dict.mem_keys_set.2 (Or.inl rfl)))) rfl
  obtain ⟨m, hm, _⟩ := h.fields _ (mem_shape hi)
  exact ⟨m, by rw [← e]; exact hm, fun q => by cases q⟩

theorem found_vid {enc : Enc} {c : Ctx} {r : Rule} {x : Built} {items : List MatchItem} {inst : List Inst}
    (h : Found enc c r x items inst) (hp : c.vlan.isSome = true) : Covers x.fields (fVlanVid, false) := by
  obtain ⟨n, hn⟩ := Option.isSome_iff_exists.1 hp
  have hm := h.mtch
  unfold ruleMatch at hm
  rw [hn] at hm
  obtain ⟨i, hi, e⟩ := has_field hm (f := fVlanVid) (key := .new fVlanVid) (Dict.mem_keys_set.2 (Or.inl rfl)) rfl
  obtain ⟨m, hm, _⟩ := h.fields _ (mem_shape hi)
  exact ⟨m, by rw [← e]; exact hm, fun q => by cases q⟩

/-! ## The tables -/

theorem fits_cong {d d' : Decl} (h1 : d.matchTypes = d'.matchTypes) (h2 : d.setFields = d'.setFields) (h3 : d.exact = d'.exact)
    {f : FlowMod} (h : Fits d f) : Fits d' f :=
  ⟨by rw [← h1]; exact h.declared, by rw [← h1]; exact h.masked, by rw [← h1, ← h3]; exact h.exact, h.default,
    by rw [← h2]; exact h.sets, h.once⟩

/-- An ACL table. -/
def IsAcl (t : Tbl) : Prop := t = .portAcl ∨ t = .vlanAcl ∨ t = .egressAcl

theorem decl_acl {s : Setup} {t : Tbl} (ht : IsAcl t) {D : Decl} (h : s.acl t = some D) :
    (s.decl t).matchTypes = D.matchTypes ∧ (s.decl t).setFields = D.setFields ∧ (s.decl t).exact = D.exact := by
  have e : s.decl t = noMetadata s D := by
    unfold Setup.decl withRestricted withExternal
    rw [h]
    rcases ht with rfl | rfl | rfl <;> simp
  rw [e]
  unfold noMetadata
  split <;> exact ⟨rfl, rfl, rfl⟩

theorem fit_table {s : Setup} {t : Tbl} (hi : Pipeline.included s.conf t = true) (hd : (s.decl t).Ok) {f : FlowMod}
    (ht : f.table = Pipeline.idOf s.conf t) (hf : Fits (s.decl t) f) : DeletesAll f ∨ FitsTable s f := by
  obtain ⟨x, h1, h2, h3⟩ := table_of hi
  refine Or.inr ⟨x, (Pipeline.table_mem h1).1, ht.trans h3, ?_, ?_⟩
  · rw [h2]; exact hf
  · rw [h2]; exact verify_of_fits hd hf

/-- A rule that matches one field, without mask. -/
theorem one_fits {d : Decl} {i : MatchItem} (hc : Covers d.matchTypes (i.field, false)) (hx : d.exact = false) {f : FlowMod} (hi : f.mtch.items = [i])
    (hm : i.mask = none) (hp : ¬ Puts f ∨ f.priority ≠ 0) (ha : ∀ as, .apply as ∉ f.inst) : Fits d f where
  declared := by
    intro j hj
    rw [hi, List.mem_singleton] at hj
    obtain ⟨m, h, _⟩ := hc
    exact ⟨m, by rw [hj]; exact Dict.mem_of_get? h⟩
  masked := by
    intro _ j hj h
    rw [hi, List.mem_singleton] at hj
    rw [hj] at h
    exact absurd hm h
  exact := by
    intro _ h
    rw [hx] at h
    cases h
  default := by
    intro h1 h2
    rcases hp with h | h
    · exact absurd h1 h
    · exact absurd h2 h
  sets := by
    rintro k v ⟨as, h, _⟩
    exact absurd h (ha as)
  once := by rw [hi]; exact List.nodup_singleton _

theorem add_fits {d : Decl} {t : Table} {i : MatchItem} {prio n : Nat} (hc : Covers d.matchTypes (i.field, false)) (hx : d.exact = false)
    (hm : i.mask = none) (hp : prio ≠ 0) {f : FlowMod} (h : OfMsg.flow f = t.flowadd [i] prio [.goto n]) : Fits d f ∧ f.table = t.id := by
  cases h
  refine ⟨one_fits hc hx rfl hm (Or.inr hp) ?_, rfl⟩
  intro as h
  have h : Inst.apply as ∈ [Inst.goto n] := h
  simp at h

theorem del_one {d : Decl} {t : Table} {i : MatchItem} {prio : Nat} (hc : Covers d.matchTypes (i.field, false)) (hx : d.exact = false)
    (hm : i.mask = none) {f : FlowMod} (h : OfMsg.flow f = t.flowdel [i] prio) : Fits d f ∧ f.table = t.id := by
  cases h
  refine ⟨one_fits hc hx rfl hm (Or.inl ?_) ?_, rfl⟩
  · intro h
    rcases h with h | h <;> cases h
  · intro as h
    have h : Inst.apply as ∈ ([] : List Inst) := h
    cases h

/-! ## The manager -/

/-- The number of rules in a list of ACLs. -/
def ruleCount (k : AclConf) (ns : List Nat) : Nat := ((k.named ns).flatMap (·.rules)).length

/-- **The configuration was accepted**, and: an ACL is used for one kind of thing only; there are no exact match ACLs; and
not more than 20480 rules in a list of ACLs. Without these rules can be made that do not fit, see
`Ex.acl_on_vlan_and_port_defect`, `Ex.exact_acl_defect` and `Ex.many_rules_defect`. -/
structure AclOk (enc : Enc) (k : AclConf) (b : Dict Nat Built) : Prop where
  resolved : resolveAcls enc k = some b
  accepted : k.accepted = true
  one : OneKind k
  inexact : ∀ n a, k.acls.get? n = some a → a.exactMatch = false
  ports : ∀ p ∈ k.ports, ruleCount k p.aclsIn ≤ 20480
  vlans : ∀ v ∈ k.vlans, ruleCount k v.aclsIn ≤ 20480 ∧ ruleCount k v.aclsOut ≤ 20480
  dp : ruleCount k k.dpAcls ≤ 20480

section
variable {enc : Enc} {base : Conf} {k : AclConf} {b : Dict Nat Built} {ext restr : Bool}

theorem first_inexact (ok : AclOk enc k b) (ns : List Nat) : Acl.firstExact (k.named ns) = false := by
  unfold Acl.firstExact
  cases h : (k.named ns).head? with
  | none => rfl
  | some a =>
    obtain ⟨n, _, hn⟩ := List.mem_filterMap.1 (List.mem_of_head? h)
    exact ok.inexact n a hn

theorem use_port {p : PortUse} (hp : p ∈ k.ports) {n : Nat} (hn : n ∈ p.aclsIn) : (⟨n, none, some p.number⟩ : Use) ∈ k.uses :=
  List.mem_append_left _ (List.mem_append_right _ (List.mem_flatMap.2 ⟨p, hp, List.mem_map.2 ⟨n, hn, rfl⟩⟩))

theorem use_in {v : VlanUse} (hv : v ∈ k.vlans) {n : Nat} (hn : n ∈ v.aclsIn) : (⟨n, some v.vid, none⟩ : Use) ∈ k.uses :=
  List.mem_append_left _ (List.mem_append_left _ (List.mem_flatMap.2 ⟨v, hv, List.mem_map.2 ⟨n, List.mem_append_left _ hn, rfl⟩⟩))

theorem use_out {v : VlanUse} (hv : v ∈ k.vlans) {n : Nat} (hn : n ∈ v.aclsOut) : (⟨n, some v.vid, none⟩ : Use) ∈ k.uses :=
  List.mem_append_left _ (List.mem_append_left _ (List.mem_flatMap.2 ⟨v, hv, List.mem_map.2 ⟨n, List.mem_append_right _ hn, rfl⟩⟩))

theorem use_dp {n : Nat} (hn : n ∈ k.dpAcls) : (⟨n, none, none⟩ : Use) ∈ k.uses :=
  List.mem_append_right _ (List.mem_map.2 ⟨n, hn, rfl⟩)

theorem used_acl (ok : AclOk enc k b) {u : Use} (hu : u ∈ k.uses) : ∃ a, k.acls.get? u.name = some a ∧ ∃ r, r ∈ a.rules := by
  obtain ⟨x, _, a, v, _, _, hk, _⟩ := resolve_last ok.resolved hu
  refine ⟨a, hk, ?_⟩
  have h := ok.accepted
  unfold AclConf.accepted at h
  simp only [Bool.and_eq_true, List.all_eq_true] at h
  have := h.2 _ (Dict.mem_of_get? hk)
  simp only [Bool.not_eq_true', List.isEmpty_eq_false_iff] at this
  exact List.exists_mem_of_ne_nil _ this

theorem dp_nil (ok : AclOk enc k b) : (k.named k.dpAcls).isEmpty = k.dpAcls.isEmpty := by
  cases h : k.dpAcls with
  | nil => rfl
  | cons n ns =>
    obtain ⟨a, ha, _⟩ := used_acl ok (use_dp (by rw [h]; exact List.mem_cons_self) : (⟨n, none, none⟩ : Use) ∈ k.uses)
    have ha : k.acls.get? n = some a := ha
    show (List.filterMap k.acls.get? (n :: ns)).isEmpty = false
    rw [List.filterMap_cons, ha]
    rfl

theorem decl_of {ns : List Nat} {n : Nat} (hn : n ∈ ns) : aclDecl b k ns = some (ns.foldl (mergeAcl b k) {}) := by
  unfold aclDecl
  cases ns with
  | nil => cases hn
  | cons m ns => rfl

/-- The declaration of an ACL table covers what was found in its ACLs. -/
theorem covers_of (ok : AclOk enc k b) {N : List Nat} {c : Ctx} (hc : CtxOk k c) {u : Use} (hu : u ∈ k.uses) (hn : u.name ∈ N)
    (h1 : u.port.isSome = c.port.isSome) (h2 : u.vid.isSome = c.vlan.isSome) (he : EncOk enc) {e : Nat × Bool}
    (h : ∀ r x items inst, Found enc c r x items inst → Covers x.fields e) : Covers (N.foldl (mergeAcl b k) {}).matchTypes e := by
  obtain ⟨a, ha, r, hr⟩ := used_acl ok hu
  obtain ⟨n, hn', x, hx, items, inst, fd⟩ := list_found he ok.resolved ok.one hc (ns := [u.name]) (r := r) (by
      intro n hn
      rw [List.mem_singleton] at hn
      exact ⟨u, hu, hn.symm, h1, h2⟩)
    (List.mem_flatMap.2 ⟨a, List.mem_filterMap.2 ⟨_, List.mem_singleton.2 rfl, ha⟩, hr⟩)
  rw [List.mem_singleton] at hn'
  rw [hn'] at hx
  exact merge_mem hx (h r x items inst fd) N {} hn

theorem inexact_of (ok : AclOk enc k b) (N : List Nat) : (N.foldl (mergeAcl b k) {}).exact = false :=
  merge_exact N rfl (fun n _ a ha => ok.inexact n a ha)

theorem ok_of (N : List Nat) : (N.foldl (mergeAcl b k) {}).Ok := merge_nodup N (d := {}) List.nodup_nil

/-- Flow mods for an ACL table that fit what was merged. -/
theorem acl_fit {t : Tbl} (ht : IsAcl t) {N : List Nat} (hN : aclOf b k t = some (N.foldl (mergeAcl b k) {}))
    (hi : Pipeline.included (aclConf base k) t = true) {f : FlowMod} (h1 : f.table = Pipeline.idOf (aclConf base k) t)
    (h2 : Fits (N.foldl (mergeAcl b k) {}) f) : DeletesAll f ∨ FitsTable (aclSetup base ext restr b k) f := by
  obtain ⟨e1, e2, e3⟩ := decl_acl (s := aclSetup base ext restr b k) ht hN
  refine fit_table (s := aclSetup base ext restr b k) (t := t) hi ?_ h1 (fits_cong e1.symm e2.symm e3.symm h2)
  unfold Decl.Ok
  rw [e1]
  exact ok_of N

theorem std_fit {f : FlowMod} (hs : aclOf b k .portAcl = none) (hi : Pipeline.included (aclConf base k) .portAcl = true)
    (h1 : f.table = Pipeline.idOf (aclConf base k) .portAcl) (h2 : Fits (standardDecl .portAcl) f) :
    DeletesAll f ∨ FitsTable (aclSetup base ext restr b k) f := by
  have e : (aclSetup base ext restr b k).decl .portAcl = standardDecl .portAcl := by
    have hs : (aclSetup base ext restr b k).NoAcl .portAcl := hs
    rw [decl_std hs]
    have : ∀ e x r, (std e x r).decl .portAcl = standardDecl .portAcl := by decide
    exact this _ _ _
  refine fit_table (s := aclSetup base ext restr b k) (t := .portAcl) hi ?_ h1 (by rw [e]; exact h2)
  rw [e]
  show ((standardDecl .portAcl).matchTypes.map (·.1)).Nodup
  decide

theorem table_get {c : Conf} {t : Tbl} {T : Table} (h : tableGet c t = some T) :
    Pipeline.included c t = true ∧ T.id = Pipeline.idOf c t := by
  unfold tableGet at h
  split at h
  · rename_i hi
    cases h
    exact ⟨hi, rfl⟩
  · cases h

/-- **Port ACLs**: the rules of a port can be made and fit, also those to delete. -/
theorem port_acls_fit_partial (he : EncOk enc) (ok : AclOk enc k b) {p : PortUse} (hp : p ∈ k.ports) :
    ∃ ms, Acl.addPort enc (aclMgr base k) (k.port p) = some ms ∧
      AllFit (aclSetup base ext restr b k) (Acl.delPort (aclMgr base k) (k.port p) ++ ms) := by
  unfold Acl.addPort Acl.delPort
  cases hT : Acl.portAclsAllowed (aclMgr base k) (k.port p) with
  | none => exact ⟨[], rfl, fun f hf => absurd hf List.not_mem_nil⟩
  | some T =>
    unfold Acl.portAclsAllowed at hT
    split at hT
    case isFalse => cases hT
    rename_i hdp
    obtain ⟨hi, hid⟩ := table_get (show tableGet (aclConf base k) .portAcl = some T from hT)
    have hdp : k.dpAcls.isEmpty = true := by
      rw [Bool.and_eq_true] at hdp
      have h : (k.named k.dpAcls).isEmpty = true := hdp.1
      rw [dp_nil ok] at h
      exact h
    have hN : k.portNames = k.ports.flatMap (·.aclsIn) := by unfold AclConf.portNames; rw [if_pos hdp]
    -- the field for the port is declared, one way or the other
    have fit1 : ∀ f : FlowMod, (∀ d : Decl, Covers d.matchTypes (fInPort, false) → d.exact = false → Fits d f ∧ f.table = T.id) →
        DeletesAll f ∨ FitsTable (aclSetup base ext restr b k) f := by
      intro f hf
      cases hq : k.portNames with
      | nil =>
        have hs : aclOf b k .portAcl = none := by
          show aclDecl b k k.portNames = none
          rw [hq]
          rfl
        obtain ⟨h1, h2⟩ := hf (standardDecl .portAcl) ⟨false, by decide, fun q => by cases q⟩ rfl
        exact std_fit hs hi (h2.trans hid) h1
      | cons n ns =>
        have hn : n ∈ k.portNames := by rw [hq]; exact List.mem_cons_self
        have hD : aclOf b k .portAcl = some (k.portNames.foldl (mergeAcl b k) {}) := decl_of hn
        have hn' := hn
        rw [hN] at hn'
        obtain ⟨q, hq1, hq2⟩ := List.mem_flatMap.1 hn'
        have cv : Covers (k.portNames.foldl (mergeAcl b k) {}).matchTypes (fInPort, false) :=
          covers_of ok (c := Acl.portCtx (aclMgr base k) T (k.port q)) ⟨rfl, rfl, rfl, first_inexact ok _⟩ (use_port hq1 hq2) hn rfl rfl he
            (fun r x items inst fd => found_port fd rfl)
        obtain ⟨h1, h2⟩ := hf _ cv (inexact_of ok _)
        exact acl_fit (Or.inl rfl) hD hi (h2.trans hid) h1
    have del : ∀ f, OfMsg.flow f = T.flowdel [Acl.inPortItem p.number] aclPriority →
        DeletesAll f ∨ FitsTable (aclSetup base ext restr b k) f :=
      fun f hf => fit1 f (fun d h1 h2 => del_one h1 h2 rfl hf)
    simp only
    by_cases hne : (k.port p).aclsIn = []
    · rw [if_neg (not_not.2 hne)]
      refine ⟨_, rfl, ?_⟩
      intro f hf
      rcases List.mem_append.1 hf with hf | hf
      · exact del f (List.mem_singleton.1 hf)
      · exact fit1 f (fun d h1 h2 => add_fits h1 h2 rfl (by decide) (List.mem_singleton.1 hf))
    · rw [if_pos hne]
      have hsub : ∀ n ∈ p.aclsIn, n ∈ k.portNames := fun n hn => by rw [hN]; exact List.mem_flatMap.2 ⟨p, hp, hn⟩
      obtain ⟨ms, hms, fits⟩ := list_fits he ok.resolved ok.one hsub (c := Acl.portCtx (aclMgr base k) T (k.port p))
        ⟨rfl, rfl, rfl, first_inexact ok _⟩ (fun n hn => ⟨_, use_port hp hn, rfl, rfl, rfl⟩) (fun n _ a ha => ok.inexact n a ha) (ok.ports p hp)
      refine ⟨ms, hms, ?_⟩
      intro f hf
      rcases List.mem_append.1 hf with hf | hf
      · exact del f (List.mem_singleton.1 hf)
      · obtain ⟨h1, h2⟩ := fits f hf
        have : ∃ n, n ∈ p.aclsIn := List.exists_mem_of_ne_nil _ (fun e => hne (by
          show k.named p.aclsIn = []
          rw [e]
          rfl))
        obtain ⟨n, hn⟩ := this
        exact acl_fit (Or.inl rfl) (decl_of (hsub n hn)) hi (h1.trans hid) h2

/-- **VLAN ACLs**, incoming and outgoing. -/
theorem vlan_acls_fit_partial (he : EncOk enc) (ok : AclOk enc k b) {v : VlanUse} (hv : v ∈ k.vlans) :
    ∃ ms, Acl.addVlan enc (aclMgr base k) (k.vlan v) = some ms ∧
      AllFit (aclSetup base ext restr b k) (Acl.delVlan (aclMgr base k) (k.vlan v) ++ ms) := by
  -- tables for VLANs declare the VID
  have tab : ∀ {t : Tbl} {N : List Nat} {T : Table}, IsAcl t → aclOf b k t = aclDecl b k N → N ≠ [] →
      (∀ n ∈ N, ∃ w : VlanUse, w ∈ k.vlans ∧ (n ∈ w.aclsIn ∨ n ∈ w.aclsOut)) → Pipeline.included (aclConf base k) t = true →
      T.id = Pipeline.idOf (aclConf base k) t →
      ∀ f : FlowMod, (∀ d : Decl, Covers d.matchTypes (fVlanVid, false) → d.exact = false → Fits d f ∧ f.table = T.id) →
        DeletesAll f ∨ FitsTable (aclSetup base ext restr b k) f := by
    intro t N T ht hN hne hw hi hid f hf
    obtain ⟨n, hn⟩ := List.exists_mem_of_ne_nil _ hne
    rw [decl_of hn] at hN
    obtain ⟨w, hw1, hw2⟩ := hw n hn
    have hu : (⟨n, some w.vid, none⟩ : Use) ∈ k.uses := by
      rcases hw2 with h | h
      · exact use_in hw1 h
      · exact use_out hw1 h
    have cv : Covers (N.foldl (mergeAcl b k) {}).matchTypes (fVlanVid, false) :=
      covers_of ok (c := { Acl.vlanCtx (aclMgr base k) T (k.vlan w) with exact := false }) ⟨rfl, rfl, rfl, rfl⟩ hu hn rfl rfl he
        (fun r x items inst fd => found_vid fd rfl)
    obtain ⟨h1, h2⟩ := hf _ cv (inexact_of ok _)
    exact acl_fit ht hN hi (h2.trans hid) h1
  have inW : ∀ n ∈ k.vlanNames, ∃ w : VlanUse, w ∈ k.vlans ∧ (n ∈ w.aclsIn ∨ n ∈ w.aclsOut) := fun n hn => by
    obtain ⟨w, h1, h2⟩ := List.mem_flatMap.1 hn
    exact ⟨w, h1, Or.inl h2⟩
  have outW : ∀ n ∈ k.egressNames, ∃ w : VlanUse, w ∈ k.vlans ∧ (n ∈ w.aclsIn ∨ n ∈ w.aclsOut) := fun n hn => by
    obtain ⟨w, h1, h2⟩ := List.mem_flatMap.1 hn
    exact ⟨w, h1, Or.inr h2⟩
  have neV : Pipeline.included (aclConf base k) .vlanAcl = true → k.vlanNames ≠ [] := by
    intro h e
    have h : (!k.vlanNames.isEmpty) = true := h
    rw [e] at h
    cases h
  have neE : Pipeline.included (aclConf base k) .egressAcl = true → k.egressNames ≠ [] := by
    intro h e
    have h : (!k.egressNames.isEmpty) = true := h
    rw [e] at h
    cases h
  have del : ∀ f, .flow f ∈ Acl.delVlan (aclMgr base k) (k.vlan v) → DeletesAll f ∨ FitsTable (aclSetup base ext restr b k) f := by
    intro f hf
    obtain ⟨T, hT, e⟩ := List.mem_map.1 hf
    rcases List.mem_append.1 hT with hT | hT
    · obtain ⟨hi, hid⟩ := table_get (show tableGet (aclConf base k) .vlanAcl = some T from Option.mem_toList.1 hT)
      exact tab (Or.inr (Or.inl rfl)) rfl (neV hi) inW hi hid f (fun d h1 h2 => del_one h1 h2 rfl e.symm)
    · obtain ⟨hi, hid⟩ := table_get (show tableGet (aclConf base k) .egressAcl = some T from Option.mem_toList.1 hT)
      exact tab (Or.inr (Or.inr rfl)) rfl (neE hi) outW hi hid f (fun d h1 h2 => del_one h1 h2 rfl e.symm)
  have hin : ∃ ms, Acl.addVlanIn enc (aclMgr base k) (k.vlan v) = some ms ∧ AllFit (aclSetup base ext restr b k) ms := by
    unfold Acl.addVlanIn
    cases hT : (aclMgr base k).vlanTable with
    | none => exact ⟨[], rfl, fun f hf => absurd hf List.not_mem_nil⟩
    | some T =>
      obtain ⟨hi, hid⟩ := table_get (show tableGet (aclConf base k) .vlanAcl = some T from hT)
      simp only
      by_cases hne : (k.vlan v).aclsIn = []
      · rw [if_neg (not_not.2 hne)]
        exact ⟨[], rfl, fun f hf => absurd hf List.not_mem_nil⟩
      · rw [if_pos hne]
        obtain ⟨ms, hms, fits⟩ := list_fits he ok.resolved ok.one (ns := v.aclsIn) (N := k.vlanNames)
          (fun n hn => List.mem_flatMap.2 ⟨v, hv, hn⟩) (c := Acl.vlanCtx (aclMgr base k) T (k.vlan v))
          ⟨rfl, rfl, rfl, first_inexact ok _⟩ (fun n hn => ⟨_, use_in hv hn, rfl, rfl, rfl⟩) (fun n _ a ha => ok.inexact n a ha) (ok.vlans v hv).1
        refine ⟨ms, hms, ?_⟩
        intro f hf
        obtain ⟨h1, h2⟩ := fits f hf
        obtain ⟨n, hn⟩ := List.exists_mem_of_ne_nil _ (neV hi)
        exact acl_fit (Or.inr (Or.inl rfl)) (decl_of hn) hi (h1.trans hid) h2
  have hout : ∃ ms, Acl.addVlanOut enc (aclMgr base k) (k.vlan v) = some ms ∧ AllFit (aclSetup base ext restr b k) ms := by
    unfold Acl.addVlanOut
    cases hT : (aclMgr base k).egressTable with
    | none => exact ⟨[], rfl, fun f hf => absurd hf List.not_mem_nil⟩
    | some T =>
      obtain ⟨hi, hid⟩ := table_get (show tableGet (aclConf base k) .egressAcl = some T from hT)
      simp only
      by_cases hne : (k.vlan v).aclsOut = []
      · rw [if_neg (not_not.2 hne)]
        refine ⟨_, rfl, ?_⟩
        intro f hf
        exact tab (Or.inr (Or.inr rfl)) rfl (neE hi) outW hi hid f
          (fun d h1 h2 => add_fits h1 h2 rfl (by decide) (List.mem_singleton.1 hf))
      · rw [if_pos hne]
        obtain ⟨ms, hms, fits⟩ := list_fits he ok.resolved ok.one (ns := v.aclsOut) (N := k.egressNames)
          (fun n hn => List.mem_flatMap.2 ⟨v, hv, hn⟩) (c := Acl.egressCtx (aclMgr base k) T (k.vlan v))
          ⟨rfl, rfl, rfl, first_inexact ok _⟩ (fun n hn => ⟨_, use_out hv hn, rfl, rfl, rfl⟩) (fun n _ a ha => ok.inexact n a ha) (ok.vlans v hv).2
        refine ⟨ms, hms, ?_⟩
        intro f hf
        obtain ⟨h1, h2⟩ := fits f hf
        obtain ⟨n, hn⟩ := List.exists_mem_of_ne_nil _ (neE hi)
        exact acl_fit (Or.inr (Or.inr rfl)) (decl_of hn) hi (h1.trans hid) h2
  obtain ⟨a, ha, fa⟩ := hin
  obtain ⟨c, hc, fc⟩ := hout
  refine ⟨a ++ c, ?_, ?_⟩
  · unfold Acl.addVlan
    rw [ha, hc]
    rfl
  · intro f hf
    rcases List.mem_append.1 hf with hf | hf
    · exact del f hf
    · rcases List.mem_append.1 hf with hf | hf
      · exact fa f hf
      · exact fc f hf

/-- **ACLs of the datapath.** -/
theorem dp_acls_fit_partial (he : EncOk enc) (ok : AclOk enc k b) :
    ∃ ms, Acl.initTables enc (aclMgr base k) = some ms ∧ AllFit (aclSetup base ext restr b k) ms := by
  unfold Acl.initTables
  cases hT : (aclMgr base k).portTable with
  | none => exact ⟨[], rfl, fun f hf => absurd hf List.not_mem_nil⟩
  | some T =>
    obtain ⟨hi, hid⟩ := table_get (show tableGet (aclConf base k) .portAcl = some T from hT)
    simp only
    by_cases hne : (aclMgr base k).dpAcls = []
    · rw [if_pos hne]
      exact ⟨[], rfl, fun f hf => absurd hf List.not_mem_nil⟩
    · rw [if_neg hne]
      have hn0 : k.dpAcls ≠ [] := fun e => hne (by show k.named k.dpAcls = []; rw [e]; rfl)
      have hN : k.portNames = k.dpAcls := by
        unfold AclConf.portNames
        rw [if_neg]
        intro h
        exact hn0 (List.isEmpty_iff.1 h)
      obtain ⟨ms, hms, fits⟩ := list_fits he ok.resolved ok.one (ns := k.dpAcls) (N := k.portNames) (fun n hn => by rw [hN]; exact hn)
        (c := { table := T, allowTable := (aclMgr base k).toVlan, forceTable := (aclMgr base k).toL2, highest := aclPriority,
                meters := (aclMgr base k).meters }) ⟨rfl, rfl, rfl, rfl⟩ (fun n hn => ⟨_, use_dp hn, rfl, rfl, rfl⟩)
        (fun n _ a ha => ok.inexact n a ha) ok.dp
      refine ⟨ms, hms, ?_⟩
      intro f hf
      obtain ⟨h1, h2⟩ := fits f hf
      obtain ⟨n, hn⟩ := List.exists_mem_of_ne_nil _ hn0
      exact acl_fit (Or.inl rfl) (decl_of (by rw [hN]; exact hn)) hi (h1.trans hid) h2

end

end Faucet.Features
