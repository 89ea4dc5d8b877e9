import Verif.Features.AclLemmas

/-!
# The rules of ACLs fit the tables that were made for them

C70, for port, VLAN and egress ACLs.
-/

namespace Faucet.Features
open Faucet.OF
open Faucet.Acl (Acl Enc Ctx Rule Key Val matchStep matchFromDict keyField withPort withVlan ruleMatch ruleInst EncOk)
open Faucet.Pipeline (Tbl Conf)

/-! ## What is noted -/

/-- The field is there, with mask if that is wanted. -/
def Covers (d : Dict Nat Bool) (e : Nat × Bool) : Prop := ∃ m, d.get? e.1 = some m ∧ (e.2 = true → m = true)

theorem note_self (d : Dict Nat Bool) (e : Nat × Bool) : Covers (note d e) e := by
  unfold note
  split
  · exact ⟨e.2, by rw [Dict.get?_set_self], id⟩
  · rename_i h
    simp only [Bool.or_eq_true, not_or] at h
    cases hg : d.get? e.1 with
    | none => rw [hg] at h; simp at h
    | some m => exact ⟨m, hg, fun q => absurd q h.1⟩

theorem note_mono {d : Dict Nat Bool} {e : Nat × Bool} (e' : Nat × Bool) (h : Covers d e) : Covers (note d e') e := by
  obtain ⟨m, hm, hi⟩ := h
  unfold note
  split
  · rename_i hc
    by_cases he : e'.1 = e.1
    · refine ⟨e'.2, by rw [← he, Dict.get?_set_self], fun q => ?_⟩
      rw [he, hm] at hc
      simpa using hc
    · exact ⟨m, by rw [Dict.get?_set_ne _ _ he]; exact hm, hi⟩
  · exact ⟨m, hm, hi⟩

theorem notes_mono {e : Nat × Bool} : ∀ (l : List (Nat × Bool)) {d : Dict Nat Bool}, Covers d e → Covers (l.foldl note d) e
  | [], _, h => h
  | x :: l, _, h => notes_mono l (note_mono x h)

theorem notes_mem {e : Nat × Bool} : ∀ (l : List (Nat × Bool)) (d : Dict Nat Bool), e ∈ l → Covers (l.foldl note d) e
  | x :: l, d, h => by
    rcases List.mem_cons.1 h with h | h
    · subst h
      exact notes_mono l (note_self d _)
    · exact notes_mem l _ h

theorem note_nodup {d : Dict Nat Bool} (h : (d.map (·.1)).Nodup) (e : Nat × Bool) : ((note d e).map (·.1)).Nodup := by
  unfold note
  split
  · exact Dict.nodup_keys_set h _ _
  · exact h

theorem notes_nodup : ∀ (l : List (Nat × Bool)) {d : Dict Nat Bool}, (d.map (·.1)).Nodup → ((l.foldl note d).map (·.1)).Nodup
  | [], _, h => h
  | e :: l, _, h => notes_nodup l (note_nodup h e)

/-! ## `ACL.build` -/

theorem msg_mono {e : Nat × Bool} {b : Built} (m : OfMsg) (h : Covers b.fields e) : Covers (noteMsg b m).fields e := by
  cases m with
  | flow f => exact notes_mono _ h
  | _ => exact h

theorem msgs_mono {e : Nat × Bool} : ∀ (ms : List OfMsg) {b : Built}, Covers b.fields e → Covers (ms.foldl noteMsg b).fields e
  | [], _, h => h
  | m :: ms, _, h => msgs_mono ms (msg_mono m h)

theorem msgs_mem {e : Nat × Bool} {f : FlowMod} (he : e ∈ shape f.mtch.items) : ∀ (ms : List OfMsg) (b : Built), .flow f ∈ ms →
    Covers (ms.foldl noteMsg b).fields e
  | m :: ms, b, h => by
    rcases List.mem_cons.1 h with h | h
    · subst h
      exact msgs_mono ms (notes_mem _ _ he)
    · exact msgs_mem he ms _ h

theorem sets_mono {k : Nat} : ∀ (ms : List OfMsg) {b : Built}, k ∈ b.sets → k ∈ (ms.foldl noteMsg b).sets
  | [], _, h => h
  | m :: ms, b, h => by
    refine sets_mono ms ?_
    cases m with
    | flow f => exact List.mem_append_left _ h
    | _ => exact h

theorem sets_mem {k v : Nat} {f : FlowMod} (ha : Acts f (.setField k v)) : ∀ (ms : List OfMsg) (b : Built), .flow f ∈ ms →
    k ∈ (ms.foldl noteMsg b).sets
  | m :: ms, b, h => by
    rcases List.mem_cons.1 h with h | h
    · subst h
      refine sets_mono ms (List.mem_append_right _ ?_)
      obtain ⟨as, h1, h2⟩ := ha
      exact List.mem_flatMap.2 ⟨_, h1, List.mem_filterMap.2 ⟨_, h2, rfl⟩⟩
    · exact sets_mem ha ms _ h

/-- What is found in a rule of an ACL. -/
structure Found (enc : Enc) (c : Ctx) (r : Rule) (x : Built) (items : List MatchItem) (inst : List Inst) : Prop where
  mtch : ruleMatch enc c r = some items
  made : ∃ g, ruleInst c r = some (inst, g)
  fields : ∀ e ∈ shape items, Covers x.fields e
  sets : ∀ as k v, .apply as ∈ trimInst inst → .setField k v ∈ as → k ∈ x.sets

theorem build_found {enc : Enc} {meters : Dict Nat Nat} {a : Acl} {vid port : Option Nat} {x : Built}
    (h : aclBuild enc meters a vid port = some x) {r : Rule} (hr : r ∈ a.rules) :
    ∃ items inst, Found enc (wildcardCtx meters a vid port) r x items inst := by
  unfold aclBuild at h
  rw [Acl.buildAcls_eq] at h
  obtain ⟨ms, hms, rfl⟩ := Option.map_eq_some_iff.1 h
  simp only [List.flatMap_cons, List.flatMap_nil, List.append_nil] at hms
  obtain ⟨i, hi⟩ := List.mem_iff_getElem?.1 hr
  obtain ⟨items, y, h1, h2, h3⟩ := (Acl.mem_buildList _ _ _ _ _ hms).1 i r hi
  refine ⟨items, y.1, h1, ⟨y.2, h2⟩, ?_, ?_⟩
  · intro e he
    exact msgs_mem (f := Acl.aclFlow _ items _ y.1 r.cookie) he ms _ h3
  · intro as k v ha hk
    exact sets_mem (f := Acl.aclFlow _ items _ y.1 r.cookie) ⟨as, ha, hk⟩ ms _ h3

/-- The same rule made for a port, a VLAN or the datapath. -/
theorem found_alike {enc : Enc} (he : EncOk enc) {c c' : Ctx} (ha : Alike c c') {r : Rule} {x : Built} {items : List MatchItem}
    {inst : List Inst} (h : Found enc c r x items inst) : ∃ items' inst', Found enc c' r x items' inst' := by
  have e1 := rule_shape he ha r
  rw [h.mtch] at e1
  obtain ⟨items', hi, es⟩ := Option.map_eq_some_iff.1 e1.symm
  obtain ⟨g, hg⟩ := h.made
  have e2 := rule_norm ha r
  rw [hg] at e2
  obtain ⟨y, hy, ey⟩ := Option.map_eq_some_iff.1 e2.symm
  refine ⟨items', y.1, hi, ⟨y.2, hy⟩, ?_, ?_⟩
  · rw [es]; exact h.fields
  · intro as k v h1 h2
    refine h.sets as k v ?_ h2
    rw [mem_norm, trim_norm] at h1 ⊢
    have ey : y.1.map norm = inst.map norm := ey
    rw [← ey]
    exact h1

/-! ## `resolve_acls` -/

/-- The ACL was built last for the use `v`. -/
def LastUse (enc : Enc) (k : AclConf) (n : Nat) (x : Built) : Prop :=
  ∃ a v, v ∈ k.uses ∧ v.name = n ∧ k.acls.get? n = some a ∧ aclBuild enc k.meters a v.vid v.port = some x

theorem resolve_fold {enc : Enc} {k : AclConf} : ∀ (us : List Use) (b0 : Dict Nat Built) {b : Dict Nat Built}, (∀ u ∈ us, u ∈ k.uses) →
    (∀ n x, b0.get? n = some x → LastUse enc k n x) → us.foldlM (resolveOne enc k) b0 = some b →
    (∀ n x, b.get? n = some x → LastUse enc k n x) ∧ (∀ n, (b0.get? n).isSome → (b.get? n).isSome) ∧ ∀ u ∈ us, (b.get? u.name).isSome
  | [], b0, b, _, h0, h => by
    cases h
    exact ⟨h0, fun _ h => h, fun _ h => absurd h List.not_mem_nil⟩
  | u :: us, b0, b, hu, h0, h => by
    rw [List.foldlM_cons] at h
    obtain ⟨b1, h1, h⟩ := Option.bind_eq_some_iff.1 h
    unfold resolveOne at h1
    obtain ⟨a, ha, h1⟩ := Option.bind_eq_some_iff.1 h1
    obtain ⟨x, hx, rfl⟩ := Option.map_eq_some_iff.1 h1
    have q : ∀ n y, (b0.set u.name x).get? n = some y → LastUse enc k n y := by
      intro n y hy
      rw [Dict.get?_set] at hy
      split at hy
      · rename_i e
        subst e
        cases hy
        exact ⟨a, u, hu u List.mem_cons_self, rfl, ha, hx⟩
      · exact h0 n y hy
    obtain ⟨i1, i2, i3⟩ := resolve_fold us _ (fun v hv => hu v (List.mem_cons_of_mem _ hv)) q h
    refine ⟨i1, fun n hn => i2 n ?_, fun v hv => ?_⟩
    · rw [Dict.get?_set]
      split
      · rfl
      · exact hn
    · rcases List.mem_cons.1 hv with hv | hv
      · subst hv
        exact i2 _ (by rw [Dict.get?_set_self]; rfl)
      · exact i3 v hv

theorem resolve_last {enc : Enc} {k : AclConf} {b : Dict Nat Built} (h : resolveAcls enc k = some b) {u : Use} (hu : u ∈ k.uses) :
    ∃ x, b.get? u.name = some x ∧ LastUse enc k u.name x := by
  obtain ⟨h1, _, h3⟩ := resolve_fold k.uses [] (fun _ h => h) (fun n x h => by cases h) h
  obtain ⟨x, hx⟩ := Option.isSome_iff_exists.1 (h3 u hu)
  exact ⟨x, hx, h1 _ _ hx⟩

/-! ## `_generate_acl_tables` -/

theorem merge_mono {b : Dict Nat Built} {k : AclConf} {e : Nat × Bool} : ∀ (ns : List Nat) {d : Decl}, Covers d.matchTypes e →
    Covers (ns.foldl (mergeAcl b k) d).matchTypes e
  | [], _, h => h
  | n :: ns, _, h => merge_mono ns (notes_mono _ h)

theorem merge_mem {b : Dict Nat Built} {k : AclConf} {e : Nat × Bool} {n : Nat} {x : Built} (hb : b.get? n = some x)
    (hx : Covers x.fields e) : ∀ (ns : List Nat) (d : Decl), n ∈ ns → Covers (ns.foldl (mergeAcl b k) d).matchTypes e
  | m :: ns, d, h => by
    rcases List.mem_cons.1 h with h | h
    · subst h
      refine merge_mono ns ?_
      obtain ⟨m, hm, hi⟩ := hx
      obtain ⟨m', h1, h2⟩ := notes_mem x.fields d.matchTypes (Dict.mem_of_get? hm)
      refine ⟨m', ?_, fun q => h2 (hi q)⟩
      show (((b.get? n).getD {}).fields.foldl note d.matchTypes).get? e.1 = some m'
      rw [hb]
      exact h1
    · exact merge_mem hb hx ns _ h

theorem merge_sets_mono {b : Dict Nat Built} {k : AclConf} {s : Nat} : ∀ (ns : List Nat) {d : Decl}, s ∈ d.setFields →
    s ∈ (ns.foldl (mergeAcl b k) d).setFields
  | [], _, h => h
  | n :: ns, _, h => merge_sets_mono ns (List.mem_append_left _ h)

theorem merge_sets {b : Dict Nat Built} {k : AclConf} {s n : Nat} {x : Built} (hb : b.get? n = some x) (hx : s ∈ x.sets) :
    ∀ (ns : List Nat) (d : Decl), n ∈ ns → s ∈ (ns.foldl (mergeAcl b k) d).setFields
  | m :: ns, d, h => by
    rcases List.mem_cons.1 h with h | h
    · subst h
      refine merge_sets_mono ns (List.mem_append_right _ ?_)
      rw [hb]
      exact hx
    · exact merge_sets hb hx ns _ h

theorem merge_nodup {b : Dict Nat Built} {k : AclConf} : ∀ (ns : List Nat) {d : Decl}, d.Ok → (ns.foldl (mergeAcl b k) d).Ok
  | [], _, h => h
  | _ :: ns, _, h => merge_nodup ns (notes_nodup _ h)

theorem merge_exact {b : Dict Nat Built} {k : AclConf} : ∀ (ns : List Nat) {d : Decl}, d.exact = false →
    (∀ n ∈ ns, ∀ a, k.acls.get? n = some a → a.exactMatch = false) → (ns.foldl (mergeAcl b k) d).exact = false
  | [], _, h, _ => h
  | n :: ns, _, _, hn => by
    refine merge_exact ns ?_ (fun m hm => hn m (List.mem_cons_of_mem _ hm))
    show ((k.acls.get? n).map (·.exactMatch)).getD false = false
    cases hk : k.acls.get? n with
    | none => rfl
    | some a => exact hn n List.mem_cons_self a hk

theorem merge_meta {b : Dict Nat Built} {k : AclConf} : ∀ (ns : List Nat) (d : Decl),
    (ns.foldl (mergeAcl b k) d).metadataMatch = d.metadataMatch ∧ (ns.foldl (mergeAcl b k) d).metadataWrite = d.metadataWrite
  | [], _ => ⟨rfl, rfl⟩
  | n :: ns, d => merge_meta ns (mergeAcl b k d n)

/-! ## Lists of ACLs -/

theorem kw_nodup (enc : Enc) : ∀ (d : Dict Key Val) (kw kw' : Dict Nat (Nat × Option Nat)), kw.keys.Nodup →
    d.foldlM (matchStep enc) kw = some kw' → kw'.keys.Nodup
  | [], kw, kw', h, e => by cases e; exact h
  | x :: d, kw, kw', h, e => by
    rw [List.foldlM_cons] at e
    obtain ⟨kw1, h1, e⟩ := Option.bind_eq_some_iff.1 e
    unfold matchStep at h1
    obtain ⟨f, _, h1⟩ := Option.bind_eq_some_iff.1 h1
    obtain ⟨y, _, rfl⟩ := Option.map_eq_some_iff.1 h1
    exact kw_nodup enc d _ kw' (Dict.nodup_keys_set h _ _) e

theorem items_nodup {enc : Enc} {d : Dict Key Val} {items : List MatchItem} (h : matchFromDict enc d = some items) :
    (items.map (·.field)).Nodup := by
  unfold matchFromDict at h
  obtain ⟨kw, h1, rfl⟩ := Option.map_eq_some_iff.1 h
  have hk := kw_nodup enc d [] kw List.nodup_nil h1
  rw [List.map_map]
  have : ((isort (fun a b => decide (a.1 ≤ b.1)) kw).map (·.1)).Perm (kw.map (·.1)) := (isort_perm _ kw).map _
  exact this.nodup_iff.2 hk

/-- An ACL is only used for one kind of thing: VLANs, ports, or the datapath. -/
def OneKind (k : AclConf) : Prop :=
  ∀ u ∈ k.uses, ∀ v ∈ k.uses, u.name = v.name → u.vid.isSome = v.vid.isSome ∧ u.port.isSome = v.port.isSome

/-- Each ACL of the list is used like that. -/
def UsedFor (k : AclConf) (c : Ctx) (ns : List Nat) : Prop :=
  ∀ n ∈ ns, ∃ u ∈ k.uses, u.name = n ∧ u.port.isSome = c.port.isSome ∧ u.vid.isSome = c.vlan.isSome

structure CtxOk (k : AclConf) (c : Ctx) : Prop where
  meters : c.meters = k.meters
  tunnels : c.tunnels = none
  flowdel : c.flowdel = false
  exact : c.exact = false

theorem buildList_some {enc : Enc} {c : Ctx} : ∀ (rules : List Rule) (base : Nat),
    (∀ r ∈ rules, (ruleMatch enc c r).isSome = true ∧ (ruleInst c r).isSome = true) → ∃ ms, Acl.buildList enc c base rules = some ms
  | [], _, _ => ⟨[], rfl⟩
  | r :: rs, base, h => by
    obtain ⟨ms, hms⟩ := buildList_some rs (base - 1) (fun x hx => h x (List.mem_cons_of_mem _ hx))
    obtain ⟨h1, h2⟩ := h r List.mem_cons_self
    obtain ⟨items, hi⟩ := Option.isSome_iff_exists.1 h1
    obtain ⟨x, hx⟩ := Option.isSome_iff_exists.1 h2
    unfold Acl.buildList
    rw [hms]
    unfold Acl.buildRule
    rw [hi, hx]
    exact ⟨_, rfl⟩

theorem list_found {enc : Enc} (he : EncOk enc) {k : AclConf} {b : Dict Nat Built} (hb : resolveAcls enc k = some b) (one : OneKind k)
    {ns : List Nat} {c : Ctx} (hc : CtxOk k c) (hu : UsedFor k c ns) {r : Rule} (hr : r ∈ (k.named ns).flatMap (·.rules)) :
    ∃ n ∈ ns, ∃ x, b.get? n = some x ∧ ∃ items inst, Found enc c r x items inst := by
  obtain ⟨a, ha, hr⟩ := List.mem_flatMap.1 hr
  obtain ⟨n, hn, hk⟩ := List.mem_filterMap.1 ha
  obtain ⟨u, huu, rfl, h1, h2⟩ := hu n hn
  obtain ⟨x, hx, a', v, hv, e, hk', hbuild⟩ := resolve_last hb huu
  rw [hk] at hk'
  cases hk'
  refine ⟨_, hn, x, hx, ?_⟩
  obtain ⟨items, inst, fd⟩ := build_found hbuild hr
  obtain ⟨o1, o2⟩ := one v hv u huu e
  exact found_alike he ⟨o2.trans h1, o1.trans h2, hc.meters.symm, hc.tunnels.symm⟩ fd

theorem list_fits {enc : Enc} (he : EncOk enc) {k : AclConf} {b : Dict Nat Built} (hb : resolveAcls enc k = some b) (one : OneKind k)
    {ns N : List Nat} (hN : ∀ n ∈ ns, n ∈ N) {c : Ctx} (hc : CtxOk k c) (hu : UsedFor k c ns)
    (hx : ∀ n ∈ N, ∀ a, k.acls.get? n = some a → a.exactMatch = false)
    (hl : ((k.named ns).flatMap (·.rules)).length ≤ c.highest) :
    ∃ ms, Acl.buildAcls enc c (k.named ns) = some ms ∧
      ∀ f, .flow f ∈ ms → f.table = c.table.id ∧ Fits (N.foldl (mergeAcl b k) {}) f := by
  rw [Acl.buildAcls_eq]
  obtain ⟨ms, hms⟩ := buildList_some (enc := enc) (c := c) ((k.named ns).flatMap (·.rules)) c.highest (by
    intro r hr
    obtain ⟨n, _, x, _, items, inst, fd⟩ := list_found he hb one hc hu hr
    obtain ⟨g, hg⟩ := fd.made
    exact ⟨by rw [fd.mtch]; rfl, by rw [hg]; rfl⟩)
  refine ⟨ms, hms, ?_⟩
  intro f hf
  have hadd := Acl.mem_buildList_add hms hc.flowdel f hf
  obtain ⟨i, r, items, y, hi, h1, h2, rfl⟩ := (Acl.mem_buildList _ _ _ _ _ hms).2.1 f hf hadd
  obtain ⟨n, hn, x, hbx, items', inst', fd⟩ := list_found he hb one hc hu (List.mem_of_getElem? hi)
  obtain ⟨g, hg⟩ := fd.made
  have e1 := fd.mtch
  rw [h1] at e1
  cases e1
  rw [h2] at hg
  cases hg
  have cov : ∀ j ∈ items, Covers (N.foldl (mergeAcl b k) {}).matchTypes (j.field, j.mask.isSome) :=
    fun j hj => merge_mem hbx (fd.fields _ (mem_shape hj)) N {} (hN n hn)
  refine ⟨rfl, ?_, ?_, ?_, ?_, ?_, items_nodup h1⟩
  · intro j hj
    obtain ⟨m, hm, _⟩ := cov j hj
    exact ⟨m, Dict.mem_of_get? hm⟩
  · intro _ j hj hmask
    obtain ⟨m, hm, hi⟩ := cov j hj
    have : m = true := hi (by
      cases hq : j.mask with
      | none => exact absurd hq hmask
      | some v => rfl)
    rw [this] at hm
    exact Dict.mem_of_get? hm
  · intro _ hex
    rw [merge_exact N rfl hx] at hex
    cases hex
  · intro _ h0
    have : i < ((k.named ns).flatMap (·.rules)).length := (List.getElem?_eq_some_iff.1 hi).1
    have h0 : Acl.prioOf c c.highest i = 0 := h0
    unfold Acl.prioOf at h0
    rw [hc.exact] at h0
    simp only [Bool.false_eq_true, if_false] at h0
    omega
  · rintro s v ⟨as, h3, h4⟩
    exact merge_sets hbx (fd.sets as s v h3 h4) N {} (hN n hn)

end Faucet.Features
