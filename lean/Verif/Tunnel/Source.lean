import Verif.Tunnel.Back
import Verif.Dot1x.Lemmas

/-!
# The ACL rule of the source switch

`acl_update_tunnel` builds the rules of the ACL that use the tunnel again, with the output of the tunnel.
-/

namespace Faucet.Tunnel
open Faucet.OF Faucet.Acl Faucet.Stack

/-- A flow that uses no group is not touched by messages about groups. -/
theorem spares {B : Body} (hno : ∀ i ∈ B.inst, ∀ as, i = .apply as → ∀ x ∈ as, ∀ y, x ≠ .group y) (g : GroupMod) (S : Slot) :
    (OfMsg.group g).kills S B = false := by
  obtain ⟨cmd, gid, bs⟩ := g
  cases cmd with
  | add => rfl
  | delete =>
    cases gid with
    | none =>
      simp only [OfMsg.kills, List.any_eq_false]
      intro i hi
      cases i with
      | apply as =>
        simp only [List.any_eq_true, not_exists, not_and]
        intro x hx
        cases x <;> first | exact absurd rfl (hno _ hi _ rfl _ hx _) | simp
      | _ => simp
    | some y =>
      simp only [OfMsg.kills, Body.usesGroup, List.any_eq_false]
      intro i hi
      cases i with
      | apply as =>
        simp only [List.any_eq_true, not_exists, not_and, beq_iff_eq]
        intro x hx
        exact hno _ hi _ rfl _ hx y
      | _ => simp

theorem mem_trimInst {l : List Inst} {as : List Action} (h : Inst.apply as ∈ trimInst l) :
    ∃ as', Inst.apply as' ∈ l ∧ ∀ x ∈ as, x ∈ as' := by
  simp only [trimInst, List.mem_filterMap] at h
  obtain ⟨j, hj, hji⟩ := h
  cases j with
  | apply bs =>
    refine ⟨bs, hj, ?_⟩
    simp only [trimOne] at hji
    generalize (l.any Inst.isGoto) = gp at hji
    by_cases hcond : (!gp && !bs.any Action.isCt) = true
    · rw [if_pos hcond] at hji
      by_cases hnil : trimActions bs = []
      · rw [if_pos hnil] at hji; cases hji
      · rw [if_neg hnil] at hji
        injection hji with hji
        injection hji with hji
        rw [← hji]
        exact fun x hx => mem_trimActions hx
    · rw [if_neg hcond] at hji
      by_cases hnil : bs = []
      · rw [if_pos hnil] at hji; cases hji
      · rw [if_neg hnil] at hji
        injection hji with hji
        injection hji with hji
        rw [← hji]
        exact fun x hx => hx
  | _ => simp [trimOne] at hji

/-- A flow of another rule or port. -/
theorem buildRule_leaves {enc : Enc} {c : Ctx} {prio : Nat} {r : Rule} {ms : List OfMsg} (h : buildRule enc c prio r = some ms)
    {S : Slot} {B : Body} (hno : ∀ i ∈ B.inst, ∀ as, i = .apply as → ∀ x ∈ as, ∀ y, x ≠ .group y)
    (hcov : ∀ items, ruleMatch enc c r = some items → coversItems items S.items = false) : Leaves ms S B := by
  unfold buildRule at h
  obtain ⟨items, h1, h⟩ := Option.bind_eq_some_iff.1 h
  obtain ⟨x, h2, rfl⟩ := Option.map_eq_some_iff.1 h
  have hc := hcov items h1
  apply leaves_of_msgs
  intro m hm
  simp only [List.mem_append] at hm
  rcases hm with (hm | hm) | hm
  · obtain ⟨g, rfl⟩ := groups_ruleInst c r x h2 m hm
    simp only [OfMsg.onFlow, Option.filter, spares hno g, Bool.not_false, if_true]
  · by_cases hf : c.flowdel = true
    · rw [if_pos hf] at hm
      rw [List.mem_singleton.1 hm]
      simp [Table.flowdel, OfMsg.onFlow, FlowMod.kills, hc]
    · rw [if_neg hf] at hm
      cases hm
  · rw [List.mem_singleton.1 hm]
    simp only [OfMsg.onFlow, aclFlow]
    refine if_neg ?_
    intro heq
    have hi : items = S.items := congrArg Slot.items heq
    rw [← hi, Dot1x.coversItems_of_subset (fun i hi => hi)] at hc
    cases hc

/-- The flow of the rule itself. -/
theorem buildRule_puts {enc : Enc} {c : Ctx} {prio : Nat} {r : Rule} {ms : List OfMsg} (h : buildRule enc c prio r = some ms)
    {items : List MatchItem} {inst : List Inst} {gs : List OfMsg} (hm : ruleMatch enc c r = some items)
    (hi : ruleInst c r = some (inst, gs)) :
    Puts ms ⟨c.table.id, if c.exact then c.highest else prio, items⟩ ⟨trimInst inst, r.cookie.getD c.table.cookie, 0, 0⟩ := by
  unfold buildRule at h
  rw [hm, hi] at h
  simp only [Option.bind_some, Option.map_some, Option.some.injEq] at h
  subst h
  intro sw
  rw [execAll_append]
  generalize sw.execAll _ = sw'
  show (OfMsg.flow (aclFlow c.table items _ inst r.cookie)).onFlow _ (sw'.flows _) = _
  simp only [OfMsg.onFlow, aclFlow]
  exact if_pos rfl

theorem keys_nodup {r : Rule} (h : Unambiguous r) : r.fields.keys.Nodup := by
  unfold Unambiguous at h
  have : r.fields.map (fun e => keyField e.1) = r.fields.keys.map keyField := by
    unfold Dict.keys
    rw [List.map_map]
    rfl
  rw [this] at h
  exact List.Nodup.of_map _ h

theorem leaves_flatten {ls : List (List OfMsg)} {S : Slot} {B : Body} (h : ∀ x ∈ ls, Leaves x S B) : Leaves ls.flatten S B := by
  rw [← List.flatMap_id']
  exact leaves_flatMap h

theorem puts_flatten {ls : List (List OfMsg)} {S : Slot} {B : Body} (h : ∀ x ∈ ls, Leaves x S B) {x : List OfMsg} (hx : x ∈ ls)
    (hp : Puts x S B) : Puts ls.flatten S B := by
  rw [← List.flatMap_id']
  exact puts_flatMap h hx hp

theorem mapM_some_mem {α β : Type} {f : α → Option β} {l : List α} {bs : List β} (h : l.mapM f = some bs) :
    ∀ a ∈ l, ∃ b ∈ bs, f a = some b := by
  induction l generalizing bs with
  | nil => intro a ha; cases ha
  | cons a l ih =>
    rw [List.mapM_cons] at h
    obtain ⟨x, h1, h⟩ := Option.bind_eq_some_iff.1 h
    obtain ⟨xs, h2, h⟩ := Option.bind_eq_some_iff.1 h
    injection h with h
    subst h
    intro b hb
    rcases List.mem_cons.1 hb with rfl | hb
    · exact ⟨x, by simp, h1⟩
    · obtain ⟨y, hy, hfy⟩ := ih h2 b hb
      exact ⟨y, List.mem_cons_of_mem _ hy, hfy⟩

theorem get_tunnelDict {n : Net} {u l2 : Nat} {a : TAcl} (hw : Wired a) {dyn : Dyn} {vid : Nat} {d : Dest} (hd : (vid, d) ∈ a.dests)
    {s : Source} (hs : s ∈ a.sources) {l : List OutAct} (hl : fwd n u l2 vid d s = some l) :
    (tunnelDict a (updDyn n u l2 a dyn) s).get? vid = some (.ordered l) := by
  have hfind : a.dests.find? (fun e => e.1 = vid) = some (vid, d) := by
    have : a.dests.find? (fun e => decide (e.1 = vid)) ≠ none := by
      intro h
      rw [List.find?_eq_none] at h
      exact h _ hd (by simp)
    obtain ⟨e, he⟩ := Option.ne_none_iff_exists'.1 this
    have h1 := List.find?_some he
    have h2 := List.mem_of_find?_eq_some he
    simp only [decide_eq_true_eq] at h1
    rw [he, List.inj_on_of_nodup_map hw.ids h2 hd h1]
  have hupd : updDyn n u l2 a dyn vid s = some l := by
    unfold updDyn
    rw [hfind]
    simp only [hs, if_true, hl]
  have hnd : (Dict.keys (tunnelDict a (updDyn n u l2 a dyn) s)).Nodup := by
    have hsub : List.Sublist (Dict.keys (tunnelDict a (updDyn n u l2 a dyn) s)) (a.dests.map (·.1)) := by
      unfold tunnelDict Dict.keys
      generalize a.dests = ds
      induction ds with
      | nil => exact List.Sublist.slnil
      | cons e ds ih =>
        rw [List.filterMap_cons]
        cases h : updDyn n u l2 a dyn e.1 s with
        | none =>
          simp only [Option.map_none, List.map_cons]
          exact ih.cons _
        | some k =>
          simp only [Option.map_some, List.map_cons]
          exact ih.cons_cons _
    exact hsub.nodup hw.ids
  refine Dict.get?_of_mem hnd ?_
  unfold tunnelDict
  rw [List.mem_filterMap]
  exact ⟨(vid, d), hd, by simp [hupd]⟩

/-- The rule uses some tunnel. -/
def UsesTunnel (r : Rule) : Prop := ∃ o, r.actions.bind (·.output) = some o ∧ outTunnels o ≠ []

/-- After the messages of `update` the switch of a source has the rule of the ACL with the output of the tunnel, whatever was in
the switch before, if no other rule with a tunnel covers it (see `source_rules_defect` for why not). -/
theorem update_installs_source {enc : Enc} (he : EncOk enc) {m : Mgr} {n : Net} {u l2 : Nat} {t : Table} {a : TAcl} {dyn dyn' : Dyn}
    {ms : List OfMsg} (h : update enc m n u l2 t a dyn = some (dyn', ms)) (hw : Wired a) (hdp : a.acl ∉ m.dpAcls)
    (hports : ∀ s ∈ a.sources, s.dp = u → s.port ≠ none)
    (hone : ∀ s ∈ a.sources, ∀ s' ∈ a.sources, s.dp = u → s'.dp = u → s.port = s'.port → s = s')
    (hu : ∀ r ∈ a.acl.rules, Unambiguous r) (hex : a.acl.exactMatch = false)
    {vid : Nat} {d : Dest} (hd : (vid, d) ∈ a.dests) {s : Source} (hs : s ∈ a.sources) (hsu : s.dp = u) {l : List OutAct}
    (hl : fwd n u l2 vid d s = some l) (hx : NoGoto l) (hne : actsOf l ≠ [])
    {r : Rule} (hr : r ∈ a.acl.rules) {act : Actions} (ha : r.actions = some act) (ht : TunnelOnly act vid)
    (hcov : ∀ r' ∈ a.acl.rules, r' ≠ r → UsesTunnel r' → ∀ items items',
      matchFromDict enc (withPort s.port r'.fields) = some items' → matchFromDict enc (withPort s.port r.fields) = some items →
      coversItems items' items = false) (sw : Switch) :
    ∃ c rules inst items b, c.tunnels = some rules ∧ rules.get? vid = some (.ordered l) ∧ c.allowTable = m.toVlan ∧ c.forceTable = m.toL2 ∧
      ruleInst c r = some (inst, []) ∧ matchFromDict enc (withPort s.port r.fields) = some items ∧
      (sw.execAll ms).flows ⟨t.id, aclPriority - a.acl.rules.idxOf r, items⟩ = some b ∧ b.inst = trimInst inst := by
  unfold update at h
  obtain ⟨own, hown, h⟩ := Option.map_eq_some_iff.1 h
  injection h with _ h
  subst h
  have hng : NoGroup l := noGroup_fwd (hw.noGroup _ hd) hl
  have hget := get_tunnelDict hw (dyn := dyn) hd hs hl
  have hinst := ruleInst_out (c := srcCtx m t a (updDyn n u l2 a dyn) s s.port a.acl.exactMatch) ha ht rfl hget hx hng hne
  have hpair : (s, vid) ∈ ownPairs n u l2 a := by
    unfold ownPairs
    rw [List.mem_flatMap]
    refine ⟨s, by simpa using ⟨hs, hsu⟩, ?_⟩
    rw [List.mem_map]
    exact ⟨(vid, d), by simp [hd, hl], rfl⟩
  obtain ⟨part, hpart, hbuilt⟩ := mapM_some_mem hown _ hpair
  unfold aclMsgs at hbuilt
  rw [if_neg hdp] at hbuilt
  obtain ⟨parts, hparts, rfl⟩ := Option.map_eq_some_iff.1 hbuilt
  have hrt : r ∈ tunnelRulesOf a.acl vid := by
    unfold tunnelRulesOf
    rw [List.mem_filter]
    refine ⟨hr, ?_⟩
    rw [ha]
    rcases ht.1 with h1 | h1 <;> simp [h1, outTunnels]
  obtain ⟨mine, hmine, hbr⟩ := mapM_some_mem hparts r hrt
  obtain ⟨items, hitems⟩ : ∃ items, ruleMatch enc (srcCtx m t a (updDyn n u l2 a dyn) s s.port a.acl.exactMatch) r = some items := by
    unfold buildRule at hbr
    obtain ⟨items, h1, _⟩ := Option.bind_eq_some_iff.1 hbr
    exact ⟨items, h1⟩
  obtain ⟨pn, hpn⟩ := Option.ne_none_iff_exists'.1 (hports _ hs hsu)
  have hpins := Dot1x.pins_ruleMatch he (n := pn) (keys_nodup (hu r hr)) (by simpa [srcCtx] using hpn) rfl hitems
  have hputs := buildRule_puts hbr hitems hinst
  have hexf : (srcCtx m t a (updDyn n u l2 a dyn) s s.port a.acl.exactMatch).exact = false := hex
  rw [hexf] at hputs
  simp only [Bool.false_eq_true, if_false] at hputs
  have hno : ∀ i ∈ trimInst ((if act.allows then allowInst (srcCtx m t a (updDyn n u l2 a dyn) s s.port a.acl.exactMatch) act else []) ++
      [.apply (actsOf l)]), ∀ as, i = .apply as → ∀ x ∈ as, ∀ y, x ≠ .group y := by
    rintro i hi as rfl x hx' y
    obtain ⟨as', h1, h2⟩ := mem_trimInst hi
    rw [List.mem_append] at h1
    rcases h1 with h1 | h1
    · split at h1
      · unfold allowInst at h1
        split at h1 <;> simp at h1
      · cases h1
    · rw [List.mem_singleton] at h1
      injection h1 with h1
      exact usesGroup_none hng x (h1 ▸ h2 x hx') y
  have hleave : ∀ e ∈ ownPairs n u l2 a, ∀ r' ∈ tunnelRulesOf a.acl e.2, ∀ out,
      buildRule enc (srcCtx m t a (updDyn n u l2 a dyn) e.1 e.1.port a.acl.exactMatch) (aclPriority - a.acl.rules.idxOf r') r' = some out →
      Leaves out ⟨t.id, aclPriority - a.acl.rules.idxOf r, items⟩
        ⟨trimInst ((if act.allows then allowInst (srcCtx m t a (updDyn n u l2 a dyn) s s.port a.acl.exactMatch) act else []) ++
          [.apply (actsOf l)]), r.cookie.getD t.cookie, 0, 0⟩ := by
    intro e hemem r' hr' out hout
    have hes : e.1 ∈ a.sources ∧ e.1.dp = u := by
      unfold ownPairs at hemem
      obtain ⟨x, hx, hex⟩ := List.mem_flatMap.1 hemem
      obtain ⟨y, _, rfl⟩ := List.mem_map.1 hex
      simpa using hx
    have hr'm : r' ∈ a.acl.rules := List.mem_of_mem_filter hr'
    by_cases hse : e.1 = s
    · by_cases hrr : r' = r
      · subst hrr
        rw [hse] at hout
        rw [hbr] at hout
        injection hout with hout
        subst hout
        exact hputs.leaves
      · refine buildRule_leaves hout hno ?_
        intro items' h1
        refine hcov r' hr'm hrr ?_ items items' ?_ hitems
        · unfold tunnelRulesOf at hr'
          rw [List.mem_filter] at hr'
          have := hr'.2
          cases ho : r'.actions.bind (·.output) with
          | none => rw [ho] at this; cases this
          | some o =>
            rw [ho] at this
            refine ⟨o, ho, ?_⟩
            intro hemp
            simp [hemp] at this
        · rw [hse] at h1
          exact h1
    · obtain ⟨pn', hpn'⟩ := Option.ne_none_iff_exists'.1 (hports _ hes.1 hes.2)
      refine buildRule_leaves hout hno ?_
      intro items' h1
      have hpins' := Dot1x.pins_ruleMatch he (n := pn') (keys_nodup (hu r' hr'm)) (by simpa [srcCtx] using hpn') rfl h1
      refine Dot1x.not_covers hpins'.1 hpins.2 ?_
      rintro rfl
      exact hse (hone _ hes.1 _ hs hes.2 hsu (by rw [hpn', hpn]))
  have hown' : Puts own.flatten ⟨t.id, aclPriority - a.acl.rules.idxOf r, items⟩
        ⟨trimInst ((if act.allows then allowInst (srcCtx m t a (updDyn n u l2 a dyn) s s.port a.acl.exactMatch) act else []) ++
          [.apply (actsOf l)]), r.cookie.getD t.cookie, 0, 0⟩ := by
    refine puts_flatten ?_ hpart ?_
    · intro x hx
      obtain ⟨e, hemem, hb⟩ := mapM_mem hown x hx
      unfold aclMsgs at hb
      rw [if_neg hdp] at hb
      obtain ⟨ps, hps, rfl⟩ := Option.map_eq_some_iff.1 hb
      refine leaves_flatten ?_
      intro y hy
      obtain ⟨r', hr', hb'⟩ := mapM_mem hps y hy
      exact hleave e hemem r' hr' y hb'
    · refine puts_flatten ?_ hmine hputs
      intro y hy
      obtain ⟨r', hr', hb'⟩ := mapM_mem hparts y hy
      exact hleave _ hpair r' hr' y hb'
  have hfin := hown' (sw.execAll (pathMsgs n u l2 t a))
  rw [← execAll_append] at hfin
  exact ⟨_, _, _, items, _, rfl, hget, rfl, rfl, hinst, hitems, hfin, rfl⟩

end Faucet.Tunnel
