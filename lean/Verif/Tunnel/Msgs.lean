import Verif.Tunnel.Props
import Verif.Acl.Slices

/-!
# The messages put the rules of the tunnels on the switches
-/

namespace Faucet.Tunnel
open Faucet.OF Faucet.Acl Faucet.Stack

/-! ## Batches made of parts -/

/-- The part leaves `B` in the slot. -/
def Puts (ms : List OfMsg) (S : Slot) (B : Body) : Prop := ∀ sw : Switch, (sw.execAll ms).flows S = some B

/-- The part does not disturb `B` in the slot. -/
def Leaves (ms : List OfMsg) (S : Slot) (B : Body) : Prop :=
  ∀ sw : Switch, sw.flows S = some B → (sw.execAll ms).flows S = some B

theorem execAll_append (sw : Switch) (a b : List OfMsg) : sw.execAll (a ++ b) = (sw.execAll a).execAll b := by
  simp [Switch.execAll]

theorem Puts.leaves {ms : List OfMsg} {S : Slot} {B : Body} (h : Puts ms S B) : Leaves ms S B := fun sw _ => h sw

theorem Leaves.append {a b : List OfMsg} {S : Slot} {B : Body} (ha : Leaves a S B) (hb : Leaves b S B) :
    Leaves (a ++ b) S B := by
  intro sw h
  rw [execAll_append]
  exact hb _ (ha _ h)

theorem Puts.append {a b : List OfMsg} {S : Slot} {B : Body} (ha : Puts a S B) (hb : Leaves b S B) : Puts (a ++ b) S B := by
  intro sw
  rw [execAll_append]
  exact hb _ (ha _)

theorem leaves_nil (S : Slot) (B : Body) : Leaves [] S B := fun _ h => h

theorem leaves_flatMap {α : Type} {l : List α} {f : α → List OfMsg} {S : Slot} {B : Body} (h : ∀ x ∈ l, Leaves (f x) S B) :
    Leaves (l.flatMap f) S B := by
  induction l with
  | nil => exact leaves_nil S B
  | cons a l ih =>
    rw [List.flatMap_cons]
    exact (h a (by simp)).append (ih (fun x hx => h x (List.mem_cons_of_mem _ hx)))

theorem puts_flatMap {α : Type} {l : List α} {f : α → List OfMsg} {S : Slot} {B : Body} (h : ∀ x ∈ l, Leaves (f x) S B)
    {x : α} (hx : x ∈ l) (hp : Puts (f x) S B) : Puts (l.flatMap f) S B := by
  induction l with
  | nil => cases hx
  | cons a l ih =>
    rw [List.flatMap_cons]
    have hl : Leaves (l.flatMap f) S B := leaves_flatMap (fun y hy => h y (List.mem_cons_of_mem _ hy))
    rcases List.mem_cons.1 hx with rfl | hx
    · exact hp.append hl
    · intro sw
      rw [execAll_append]
      exact ih (fun y hy => h y (List.mem_cons_of_mem _ hy)) hx _

theorem leaves_of_msgs {ms : List OfMsg} {S : Slot} {B : Body} (h : ∀ m ∈ ms, m.onFlow S (some B) = some B) :
    Leaves ms S B := by
  induction ms with
  | nil => exact leaves_nil S B
  | cons m ms ih =>
    intro sw hs
    show ((sw.exec m).execAll ms).flows S = some B
    refine ih (fun x hx => h x (List.mem_cons_of_mem _ hx)) _ ?_
    show m.onFlow S (sw.flows S) = some B
    rw [hs]
    exact h m (by simp)

/-! ## The rules of one tunnel -/

def slotOf (t : Table) (vid flag : Nat) : Slot := ⟨t.id, Dot1x.overridePriority, tunnelItems vid flag⟩

def bodyOf (t : Table) (l : List OutAct) : Body := ⟨trimInst (tunnelInst l), t.cookie, 0, 0⟩

/-- No element needs a group. -/
def NoGroup (l : List OutAct) : Prop := ∀ a ∈ l, ∀ g ns, a ≠ .failover g ns

theorem noGroup_msgs {l : List OutAct} (h : NoGroup l) : (outFlat (.ordered l)).msgs = [] := by
  rw [flat_msgs, List.flatMap_eq_nil_iff]
  intro a ha
  cases a with
  | failover g ns => exact absurd rfl (h _ ha g ns)
  | _ => rfl

theorem puts_tunnelMsgs (t : Table) (vid flag : Nat) (l : List OutAct) :
    Puts (tunnelMsgs t vid flag l) (slotOf t vid flag) (bodyOf t l) := by
  intro sw
  unfold tunnelMsgs
  rw [execAll_append]
  generalize sw.execAll _ = sw'
  have h : ∀ b, OfMsg.onFlow (t.flowadd (tunnelItems vid flag) Dot1x.overridePriority (tunnelInst l)) (slotOf t vid flag) b =
      some (bodyOf t l) := by
    intro b
    simp only [Table.flowadd, OfMsg.onFlow]
    exact if_pos rfl
  exact h _

theorem items_inj {v v' f f' : Nat} (hv : v < 4096) (hv' : v' < 4096)
    (h : coversItems (tunnelItems v f) (tunnelItems v' f') = true) : v = v' ∧ f = f' := by
  simp only [coversItems, tunnelItems, List.all_cons, List.any_cons, List.any_nil, List.all_nil, Bool.or_false,
    Bool.and_true, Bool.and_eq_true, Bool.or_eq_true, MatchItem.covers, beq_iff_eq, fVlanVid, fVlanPcp] at h
  obtain ⟨h1, h2⟩ := h
  refine ⟨?_, ?_⟩
  · rcases h1 with ⟨_, h1⟩ | ⟨h1, _⟩
    · exact Encoding.vid_present_injective hv hv' h1
    · omega
  · rcases h2 with ⟨h2, _⟩ | ⟨_, h2⟩
    · omega
    · exact h2

/-- The messages of another tunnel, or of the other direction, do not disturb the rule. -/
theorem leaves_other (t : Table) {v v' f f' : Nat} {l : List OutAct} (hl : NoGroup l) (hv : v < 4096) (hv' : v' < 4096)
    (hne : v = v' → f ≠ f') (B : Body) : Leaves (tunnelMsgs t v f l) (slotOf t v' f') B := by
  have hc : coversItems (tunnelItems v f) (tunnelItems v' f') = false := by
    cases h : coversItems (tunnelItems v f) (tunnelItems v' f')
    · rfl
    · obtain ⟨h1, h2⟩ := items_inj hv hv' h
      exact absurd h2 (hne h1)
  apply leaves_of_msgs
  intro m hm
  unfold tunnelMsgs at hm
  rw [noGroup_msgs hl, List.nil_append] at hm
  rcases List.mem_cons.1 hm with rfl | hm
  · simp [Table.flowdel, OfMsg.onFlow, FlowMod.kills, slotOf, hc]
  · rw [List.mem_singleton.1 hm]
    simp only [Table.flowadd, OfMsg.onFlow]
    rw [if_neg]
    intro he
    have : tunnelItems v f = tunnelItems v' f' := congrArg Slot.items he
    rw [this] at hc
    simp [coversItems, tunnelItems, MatchItem.covers] at hc

/-! ## What a switch computes depends only on the destination -/

theorem fwd_agree {n : Net} {u l2 vid : Nat} {d : Dest} {s s' : Source} {l l' : List OutAct} (hs : s.dp ≠ u) (hs' : s'.dp ≠ u)
    (h : fwd n u l2 vid d s = some l) (h' : fwd n u l2 vid d s' = some l') : l = l' := by
  have key : ∀ {x : Source} {k : List OutAct}, x.dp ≠ u → fwd n u l2 vid d x = some k →
      k = if u = d.dp then (if d.maintain then [] else [.popVlans 1]) ++ d.exits ++ [outEnd l2 d.port]
        else outTo ((shortestPathPort n u d.dp).map (·.num)) := by
    intro x k hx hk
    unfold fwd at hk
    unfold outport at hk
    by_cases hud : u = d.dp
    · rw [if_pos hud]
      by_cases hin : u ∈ shortestPath (n.graph u) x.dp d.dp
      · rw [if_pos hin, if_pos hud] at hk
        cases hp : d.port with
        | none =>
          rw [hp] at hk
          simp only [true_and, hud, if_true] at hk
          injection hk with hk
          rw [← hk, sourceRules, if_neg (by tauto), if_pos ⟨rfl, by rw [← hud]; exact fun h => hx h.symm⟩]
        | some p =>
          rw [hp] at hk
          cases p with
          | zero => simp at hk
          | succ p =>
            simp only [Option.some.injEq] at hk
            rw [← hk, sourceRules, if_neg (by tauto), if_pos ⟨hud, fun h => hx h.symm⟩]
      · rw [if_neg hin] at hk
        cases hp : d.port with
        | none =>
          rw [hp] at hk
          simp only [true_and, hud, if_true] at hk
          injection hk with hk
          rw [← hk, sourceRules, if_neg (by tauto), if_pos ⟨rfl, by rw [← hud]; exact fun h => hx h.symm⟩]
        | some p =>
          rw [hp] at hk
          simp at hk
    · rw [if_neg hud]
      have hnd : ¬ (d.port = none ∧ d.dp = u) := fun h => hud h.2.symm
      by_cases hin : u ∈ shortestPath (n.graph u) x.dp d.dp
      · rw [if_pos hin, if_neg hud] at hk
        cases hp : (shortestPathPort n u d.dp).map (·.num) with
        | none =>
          rw [hp] at hk
          simp [hnd] at hk
        | some p =>
          rw [hp] at hk
          cases p with
          | zero => simp at hk
          | succ p =>
            simp only [Option.some.injEq] at hk
            rw [← hk, sourceRules, if_neg (fun h => hx h.1.symm), if_neg (fun h => hud h.1), if_neg (fun h => hx h.1.symm)]
      · rw [if_neg hin] at hk
        simp [hnd] at hk
  rw [key hs h, key hs' h']

/-! ## The whole update -/

theorem noGroup_source {cur src vid l2 : Nat} {d : Dest} {out : Option Nat} (h : NoGroup d.exits) :
    NoGroup (sourceRules cur src d vid out l2) := by
  have hout : NoGroup (outTo out) := by
    cases out with
    | none => intro a ha; cases ha
    | some p => intro a ha; rw [List.mem_singleton.1 ha]; simp
  have hend : NoGroup [outEnd l2 out] := by
    cases out <;> (intro a ha; rw [List.mem_singleton.1 ha]; simp [outEnd])
  have hcap : NoGroup (encap vid d.flag) := by
    intro a ha
    simp only [encap, List.mem_cons, List.not_mem_nil, or_false] at ha
    rcases ha with rfl | rfl <;> simp
  have hpop : NoGroup [.popVlans 1] := by intro a ha; rw [List.mem_singleton.1 ha]; simp
  have happ : ∀ {x y : List OutAct}, NoGroup x → NoGroup y → NoGroup (x ++ y) := by
    intro x y hx hy a ha
    rcases List.mem_append.1 ha with ha | ha
    · exact hx a ha
    · exact hy a ha
  have hnil : NoGroup [] := by intro a ha; cases ha
  unfold sourceRules
  split
  · exact happ (happ hcap hout) hpop
  split
  · refine happ (happ ?_ h) hend
    split
    · exact hnil
    · exact hpop
  split
  · refine happ (happ h ?_) hend
    split
    · exact hcap
    · exact hnil
  · exact hout

theorem noGroup_fwd {n : Net} {u l2 vid : Nat} {d : Dest} {s : Source} {l : List OutAct} (h : NoGroup d.exits)
    (hl : fwd n u l2 vid d s = some l) : NoGroup l := by
  unfold fwd at hl
  split at hl
  · split at hl
    · injection hl with hl; rw [← hl]; exact noGroup_source h
    · cases hl
  · cases hl
  · injection hl with hl; rw [← hl]; exact noGroup_source h

theorem noGroup_reverse {cur src l2 : Nat} {d : Dest} {out : Option Nat} : NoGroup (reverseRules cur src d out l2) := by
  intro a ha g ns
  unfold reverseRules outTo outEnd at ha
  split at ha
  · cases out <;> simp at ha; rw [ha]; simp
  split at ha
  · cases out <;> simp at ha <;> rcases ha with rfl | rfl <;> simp
  split at ha
  · cases out <;> simp at ha <;> rcases ha with rfl | rfl <;> simp
  · cases out <;> simp at ha; rw [ha]; simp

theorem noGroup_rev {n : Net} {u l2 : Nat} {d : Dest} {s : Source} {l : List OutAct} (hl : rev n u l2 d s = some l) :
    NoGroup l := by
  unfold rev at hl
  split at hl
  · split at hl
    · split at hl
      · injection hl with hl; rw [← hl]; exact noGroup_reverse
      · cases hl
    · cases hl
    · injection hl with hl; rw [← hl]; exact noGroup_reverse
  · cases hl

/-- What the configuration parser makes sure of (`faucet/acl.py` 343-349, `faucet/vlan.py` 198) and what is assumed: exit
instructions without groups. -/
structure Wired (a : TAcl) : Prop where
  ids : (a.dests.map (·.1)).Nodup
  legal : ∀ e ∈ a.dests, e.1 < 4096
  noGroup : ∀ e ∈ a.dests, NoGroup e.2.exits
  oneWay : ∀ e ∈ a.dests, e.2.reverse = true → e.2.biDir = false

theorem usesGroup_none {l : List OutAct} (h : NoGroup l) : ∀ x ∈ actsOf l, ∀ g, x ≠ .group g := by
  intro x hx g
  simp only [actsOf, List.mem_flatMap] at hx
  obtain ⟨a, ha, hx⟩ := hx
  cases a <;> simp only [actFlat, List.mem_map, List.mem_flatMap, List.mem_singleton, List.not_mem_nil, pushVlan,
    List.mem_cons, or_false, List.mem_replicate] at hx
  case popVlans => rw [hx.2]; simp
  case vlanVid => rcases hx with rfl | rfl <;> simp
  case swapVid => rw [hx]; simp
  case vlanVids => obtain ⟨_, _, rfl | rfl⟩ := hx <;> simp
  case setFields => obtain ⟨_, _, rfl⟩ := hx; simp
  case port => rw [hx]; simp
  case ports => obtain ⟨_, _, rfl⟩ := hx; simp
  case failover => exact absurd rfl (h _ ha _ _)

theorem mem_trimActions {as : List Action} {x : Action} (h : x ∈ trimActions as) : x ∈ as := by
  have := trimStep_append as ([], [])
  simp only [List.nil_append] at this
  rw [← this]
  exact List.mem_append_left _ h

theorem group_spares {t : Table} {l : List OutAct} (h : NoGroup l) (g : GroupMod) (S : Slot) :
    OfMsg.kills (.group g) S (bodyOf t l) = false := by
  have hact : ∀ i ∈ (bodyOf t l).inst, ∀ as, i = .apply as → ∀ x ∈ as, x ∈ actsOf l := by
    intro i hi as he x hx
    simp only [bodyOf, trimInst, List.mem_filterMap] at hi
    obtain ⟨j, hj, hji⟩ := hi
    unfold tunnelInst at hj
    rcases List.mem_append.1 hj with hj | hj
    · rw [flat_inst] at hj
      obtain ⟨a, _, hj⟩ := List.mem_flatMap.1 hj
      cases a <;> simp only [actFlat, List.not_mem_nil, List.mem_singleton] at hj
      subst hj
      simp only [trimOne, Option.some.injEq] at hji
      rw [← hji] at he
      cases he
    · rw [List.mem_singleton.1 hj] at hji
      rw [flat_acts] at hji
      simp only [trimOne] at hji
      generalize ((tunnelInst l).any Inst.isGoto) = gp at hji
      by_cases hcond : (!gp && !(actsOf l).any Action.isCt) = true
      · rw [if_pos hcond] at hji
        by_cases hnil : trimActions (actsOf l) = []
        · rw [if_pos hnil] at hji; cases hji
        · rw [if_neg hnil] at hji
          injection hji with hji
          rw [he] at hji
          injection hji with hji
          rw [← hji] at hx
          exact mem_trimActions hx
      · rw [if_neg hcond] at hji
        by_cases hnil : actsOf l = []
        · rw [if_pos hnil] at hji; cases hji
        · rw [if_neg hnil] at hji
          injection hji with hji
          rw [he] at hji
          injection hji with hji
          rw [← hji] at hx
          exact hx
  have hno : ∀ i ∈ (bodyOf t l).inst, ∀ as, i = .apply as → ∀ x ∈ as, ∀ y, x ≠ .group y :=
    fun i hi as he x hx y => usesGroup_none h x (hact i hi as he x hx) y
  obtain ⟨cmd, gid, bs⟩ := g
  cases cmd with
  | add => rfl
  | delete =>
    cases gid with
    | none =>
      simp only [OfMsg.kills, List.any_eq_false]
      intro i hi
      cases i with
      | apply as =>
        simp only [List.any_eq_true, not_exists, not_and]
        intro x hx
        cases x <;> first | exact absurd rfl (hno _ hi _ rfl _ hx _) | simp
      | _ => simp
    | some y =>
      simp only [OfMsg.kills, Body.usesGroup, List.any_eq_false]
      intro i hi
      cases i with
      | apply as =>
        simp only [List.any_eq_true, not_exists, not_and, beq_iff_eq]
        intro x hx
        exact hno _ hi _ rfl _ hx y
      | _ => simp

theorem mapM_mem {α β : Type} {f : α → Option β} {l : List α} {bs : List β} (h : l.mapM f = some bs) :
    ∀ b ∈ bs, ∃ a ∈ l, f a = some b := by
  induction l generalizing bs with
  | nil =>
    simp only [List.mapM_nil] at h
    injection h with h
    subst h
    intro b hb
    cases hb
  | cons a l ih =>
    rw [List.mapM_cons] at h
    obtain ⟨x, h1, h⟩ := Option.bind_eq_some_iff.1 h
    obtain ⟨xs, h2, h⟩ := Option.bind_eq_some_iff.1 h
    injection h with h
    subst h
    intro b hb
    rcases List.mem_cons.1 hb with rfl | hb
    · exact ⟨a, by simp, h1⟩
    · obtain ⟨y, hy, hfy⟩ := ih h2 b hb
      exact ⟨y, List.mem_cons_of_mem _ hy, hfy⟩

/-- The rules of an ACL of one of the ports of the switch do not disturb the rule of a tunnel. -/
theorem leaves_buildRule {enc : Enc} (he : EncOk enc) {c : Ctx} {n prio : Nat} (hc : c.port = some n) (hv : c.vlan = none)
    (hp : prio < Dot1x.overridePriority) (hh : c.highest < Dot1x.overridePriority) {r : Rule} (hu : Unambiguous r)
    {ms : List OfMsg} (h : buildRule enc c prio r = some ms) {t : Table} {vid flag : Nat} {l : List OutAct}
    (hl : NoGroup l) : Leaves ms (slotOf t vid flag) (bodyOf t l) := by
  unfold buildRule at h
  obtain ⟨items, h1, h⟩ := Option.bind_eq_some_iff.1 h
  obtain ⟨x, h2, rfl⟩ := Option.map_eq_some_iff.1 h
  have hin := port_item_mem he c n hc hv r hu items h1
  have hcov : coversItems items (tunnelItems vid flag) = false := by
    cases hcv : coversItems items (tunnelItems vid flag)
    · rfl
    · simp only [coversItems, List.all_eq_true] at hcv
      have := hcv _ hin
      simp [tunnelItems, MatchItem.covers, inPortItem, fInPort, fVlanVid, fVlanPcp] at this
  apply leaves_of_msgs
  intro m hm
  simp only [List.mem_append] at hm
  rcases hm with (hm | hm) | hm
  · obtain ⟨g, rfl⟩ := groups_ruleInst c r x h2 m hm
    simp only [OfMsg.onFlow, Option.filter, group_spares hl g, Bool.not_false, if_true]
  · by_cases hf : c.flowdel = true
    · rw [if_pos hf] at hm
      rw [List.mem_singleton.1 hm]
      simp [Table.flowdel, OfMsg.onFlow, FlowMod.kills, slotOf, hcov]
    · rw [if_neg hf] at hm
      cases hm
  · rw [List.mem_singleton.1 hm]
    simp only [OfMsg.onFlow, aclFlow]
    refine if_neg ?_
    intro heq
    have : (if c.exact = true then c.highest else prio) = Dot1x.overridePriority := congrArg Slot.priority heq
    split at this <;> omega

/-- The rules of the ACL built again for the sources on the switch itself. -/
theorem leaves_own {enc : Enc} (he : EncOk enc) {m : Mgr} {n : Net} {u l2 : Nat} {t : Table} {a : TAcl} {dyn : Dyn}
    (hdp : a.acl ∉ m.dpAcls) (hports : ∀ s ∈ a.sources, s.dp = u → s.port ≠ none) (hu : ∀ r ∈ a.acl.rules, Unambiguous r)
    {own : List (List OfMsg)} (hown : (ownPairs n u l2 a).mapM (fun e => aclMsgs enc m t a dyn e.1 e.2) = some own)
    {vid flag : Nat} {l : List OutAct} (hng : NoGroup l) : Leaves own.flatten (slotOf t vid flag) (bodyOf t l) := by
  rw [← List.flatMap_id']
  apply leaves_flatMap
  intro ms' hms'
  obtain ⟨e, hemem, hbuilt⟩ := mapM_mem hown ms' hms'
  unfold aclMsgs at hbuilt
  rw [if_neg hdp] at hbuilt
  obtain ⟨parts, hparts, rfl⟩ := Option.map_eq_some_iff.1 hbuilt
  rw [← List.flatMap_id']
  apply leaves_flatMap
  intro part hpart
  obtain ⟨r, hr, hbr⟩ := mapM_mem hparts part hpart
  have hes : e.1 ∈ a.sources ∧ e.1.dp = u := by
    unfold ownPairs at hemem
    obtain ⟨x, hx, hex⟩ := List.mem_flatMap.1 hemem
    obtain ⟨y, _, rfl⟩ := List.mem_map.1 hex
    simpa using hx
  obtain ⟨pn, hpn⟩ := Option.ne_none_iff_exists'.1 (hports _ hes.1 hes.2)
  exact leaves_buildRule he (n := pn) (by simpa [srcCtx] using hpn) rfl
    (by simp only [Dot1x.overridePriority]; omega) (by simp only [srcCtx, Dot1x.overridePriority]; omega)
    (hu r (List.mem_of_mem_filter hr)) hbr hng

/-- After the messages of `update` every switch has the rule it computed for a tunnel that comes from another switch,
whatever was in the switch before. -/
theorem update_installs {enc : Enc} (he : EncOk enc) {m : Mgr} {n : Net} {u l2 : Nat} {t : Table} {a : TAcl} {dyn dyn' : Dyn}
    {ms : List OfMsg} (h : update enc m n u l2 t a dyn = some (dyn', ms)) (hw : Wired a) (hdp : a.acl ∉ m.dpAcls)
    (hports : ∀ s ∈ a.sources, s.dp = u → s.port ≠ none) (hu : ∀ r ∈ a.acl.rules, Unambiguous r)
    {vid : Nat} {d : Dest} (hd : (vid, d) ∈ a.dests) {s : Source} (hs : s ∈ a.sources) (hsu : s.dp ≠ u) {l : List OutAct}
    (hl : fwd n u l2 vid d s = some l) (sw : Switch) : HasRule (sw.execAll ms) t.id vid d.flag l := by
  unfold update at h
  obtain ⟨own, hown, h⟩ := Option.map_eq_some_iff.1 h
  injection h with _ h
  subst h
  have hng : NoGroup l := noGroup_fwd (hw.noGroup _ hd) hl
  have hfwd : ∀ e ∈ a.dests, Leaves (fwdMsgs n u l2 t e.1 e.2 a.sources) (slotOf t vid d.flag) (bodyOf t l) := by
    intro e hmem
    apply leaves_flatMap
    intro x hx
    by_cases hxu : x.dp = u
    · rw [if_pos hxu]; exact leaves_nil _ _
    · rw [if_neg hxu]
      cases hf : fwd n u l2 e.1 e.2 x with
      | none => exact leaves_nil _ _
      | some k =>
        by_cases hev : e.1 = vid
        · have : e = (vid, d) := List.inj_on_of_nodup_map hw.ids hmem hd hev
          subst this
          rw [fwd_agree hxu hsu hf hl]
          exact (puts_tunnelMsgs t vid d.flag l).leaves
        · exact leaves_other t (noGroup_fwd (hw.noGroup _ hmem) hf) (hw.legal _ hmem) (hw.legal _ hd)
            (fun h => absurd h hev) _
  have hrev : ∀ e ∈ a.dests, Leaves (revMsgs n u l2 t e.1 e.2 a.sources) (slotOf t vid d.flag) (bodyOf t l) := by
    intro e hmem
    apply leaves_flatMap
    intro x hx
    cases hf : rev n u l2 e.2 x with
    | none => exact leaves_nil _ _
    | some k =>
      refine leaves_other t (noGroup_rev hf) (hw.legal _ hmem) (hw.legal _ hd) ?_ _
      intro hev
      have : e = (vid, d) := List.inj_on_of_nodup_map hw.ids hmem hd hev
      subst this
      have hb : d.biDir = true := by
        unfold rev at hf
        split at hf
        · assumption
        · cases hf
      unfold Dest.flag
      cases hr : d.reverse
      · simp [reverseFlag, tunnelFlag]
      · rw [hw.oneWay _ hd hr] at hb
        cases hb
  have hpath : Puts (pathMsgs n u l2 t a) (slotOf t vid d.flag) (bodyOf t l) := by
    unfold pathMsgs
    refine puts_flatMap (x := (vid, d)) (fun e hmem => (hfwd e hmem).append (hrev e hmem)) hd ?_
    refine Puts.append ?_ (hrev _ hd)
    unfold fwdMsgs
    refine puts_flatMap (x := s) ?_ hs ?_
    · intro x hx
      by_cases hxu : x.dp = u
      · rw [if_pos hxu]; exact leaves_nil _ _
      · rw [if_neg hxu]
        cases hf : fwd n u l2 vid d x with
        | none => exact leaves_nil _ _
        | some k =>
          simp only
          rw [fwd_agree hxu hsu hf hl]
          exact (puts_tunnelMsgs t vid d.flag l).leaves
    · rw [if_neg hsu, hl]
      exact puts_tunnelMsgs t vid d.flag l
  exact ⟨bodyOf t l, (hpath.append (leaves_own he hdp hports hu hown hng)) sw, rfl⟩

end Faucet.Tunnel
