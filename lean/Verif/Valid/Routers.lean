import Verif.Valid.Props
import Verif.Route.AnswerProps

/-!
# Routers of an accepted configuration (C68)
-/

namespace Faucet.Valid
open Faucet

variable {c : Conf}

/-! ## Vocabulary -/

/-- The reference is to the VLAN: by its VID, or by a name that it has and no VLAN after it. -/
def VDenotes (vs : List Vlan) (k : Key) (v : Vlan) : Prop :=
  (k = .num v.vid ∧ v ∈ vs) ∨ ∃ s pre post, k = .name s ∧ vs = pre ++ v :: post ∧ v.name = s ∧ ∀ u ∈ post, u.name ≠ s

/-- A VIP as `ipaddress` makes them. -/
def Vip.Proper (x : Vip) : Prop := x.len ≤ x.width ∧ x.ip < 2 ^ x.width

/-- The address begins as the VIP does. -/
def Vip.Covers (x : Vip) (a : Nat) : Prop := a / 2 ^ (x.width - x.len) = x.ip / 2 ^ (x.width - x.len)

/-- Link-local addresses: 169.254.0.0/16 and fe80::/10. -/
def Vip.Local (x : Vip) : Prop :=
  (x.v6 = false ∧ x.ip / 2 ^ 16 = 0xA9FE) ∨ (x.v6 = true ∧ x.ip / 2 ^ 118 = 0x3FA)

/-! ## References to VLANs -/

theorem vresolve_iff {vs : List Vlan} (hn : (vs.map (·.vid)).Nodup) {k : Key} {v : Vlan} : resolveVlan vs k = some v ↔ VDenotes vs k v := by
  unfold resolveVlan VDenotes
  cases k with
  | num n =>
    have hf : vs.reverse.find? (fun v => Key.num n == .name v.name) = none := List.find?_eq_none.2 (fun v _ => by simp)
    rw [hf]
    constructor
    · intro h
      exact .inl ⟨by simpa using List.find?_some h, List.mem_of_find?_eq_some h⟩
    · rintro (⟨h, hv⟩ | ⟨s, _, _, h, _⟩)
      · cases hf : vs.find? (fun v => Key.num n == .num v.vid) with
        | none => exact absurd (List.find?_eq_none.1 hf v hv) (by simp [h])
        | some u =>
          have hu := List.find?_some hf
          have hum := List.mem_of_find?_eq_some hf
          rw [h] at hu
          have : u = v := by
            apply List.inj_on_of_nodup_map hn hum hv
            have h1 : Key.num (v.vid : Int) = .num u.vid := by simpa using hu
            injection h1 with h1
            have h1 : (v.vid : Int) = (u.vid : Int) := h1
            show u.vid = v.vid
            omega
          rw [this]
      · cases h
  | name s =>
    have hf : vs.find? (fun v => Key.name s == .num v.vid) = none := List.find?_eq_none.2 (fun v _ => by simp)
    rw [hf]
    refine Iff.trans (b := vs.reverse.find? (fun v => Key.name s == .name v.name) = some v) ?_ ?_
    · cases vs.reverse.find? (fun v => Key.name s == .name v.name) <;> simp
    rw [List.find?_eq_some_iff_append]
    constructor
    · rintro ⟨h1, a, b, h2, h3⟩
      have hs : v.name = s := by
        have h1 : s = v.name := by simpa using h1
        exact h1.symm
      refine .inr ⟨s, b.reverse, a.reverse, rfl, ?_, hs, ?_⟩
      · have := congrArg List.reverse h2
        simpa using this
      · intro u hu heq
        have := h3 u (List.mem_reverse.1 hu)
        simp [heq] at this
    · rintro (⟨h, _⟩ | ⟨s', pre, post, h, h2, h3, h4⟩)
      · cases h
      · injection h with h; subst h
        refine ⟨by simp [h3], post.reverse, pre.reverse, by rw [h2]; simp, ?_⟩
        intro u hu
        have := h4 u (List.mem_reverse.1 hu)
        have : s ≠ u.name := fun h => this h.symm
        simpa using this

/-- Each switch has the routers that have a VLAN of its own, with those of their VLANs that it has. -/
theorem routers_as_configured (hk : c.Keyed) {dps : List Dp} (h : parse c = some dps) {d : Dp} (hd : d ∈ dps) :
    (∀ r ∈ d.routers, ∃ ks, (r.1, ks) ∈ c.routers ∧ r.2 ≠ [] ∧ ∀ v, v ∈ r.2 ↔ ∃ k ∈ ks, VDenotes d.vlans k v) ∧
    (∀ x ∈ c.routers, ∀ k ∈ x.2, ∀ v, VDenotes d.vlans k v → ∃ r ∈ d.routers, r.1 = x.1 ∧ v ∈ r.2) := by
  have hn := (vlan_exists_iff hk h hd).1
  obtain ⟨dps0, hp⟩ := parse_spec hk h
  obtain ⟨dc, d0, vs, outs, o⟩ := hp.one hd
  rw [o.routers]
  have mem : ∀ (ks : List Key) (v : Vlan), v ∈ ks.filterMap (resolveVlan d.vlans) ↔ ∃ k ∈ ks, VDenotes d.vlans k v := by
    intro ks v
    rw [List.mem_filterMap]
    exact exists_congr (fun k => and_congr Iff.rfl (vresolve_iff hn))
  constructor
  · intro r hr
    obtain ⟨h1, h2⟩ := List.mem_filter.1 hr
    obtain ⟨x, hx, rfl⟩ := List.mem_map.1 h1
    exact ⟨x.2, hx, by simpa using h2, fun v => mem x.2 v⟩
  · intro x hx k hkx v hv
    have hm : v ∈ x.2.filterMap (resolveVlan d.vlans) := (mem x.2 v).2 ⟨k, hkx, hv⟩
    refine ⟨(x.1, x.2.filterMap (resolveVlan d.vlans)), List.mem_filter.2 ⟨List.mem_map_of_mem hx, ?_⟩, rfl, hm⟩
    simpa using List.ne_nil_of_mem hm

/-- Every router is used by some switch. -/
theorem routers_used (hk : c.Keyed) {dps : List Dp} (h : parse c = some dps) {x : Nat × List Key} (hx : x ∈ c.routers) :
    ∃ d ∈ dps, ∃ r ∈ d.routers, r.1 = x.1 ∧ r.2 ≠ [] := by
  obtain ⟨dps0, hp⟩ := parse_spec hk h
  have hr := hp.rest
  unfold restOk at hr
  rw [Bool.and_eq_true] at hr
  have := List.all_eq_true.1 hr.2 x hx
  obtain ⟨d, hd, h1⟩ := List.any_eq_true.1 this
  obtain ⟨r, hr, h2⟩ := List.any_eq_true.1 h1
  obtain ⟨ks, -, hne, -⟩ := (routers_as_configured hk h hd).1 r hr
  exact ⟨d, hd, r, hr, by simpa using h2, hne⟩

/-! ## VIPs -/

theorem local_iff {x : Vip} : x.linkLocal = true ↔ x.Local := by
  unfold Vip.linkLocal Vip.Local
  cases x.v6 <;> simp

theorem routersOk_overlap {rs : List (Nat × List Vlan)} {seen : List Nat} (h : routersOk seen rs = true) {r : Nat × List Vlan} (hr : r ∈ rs) :
    overlap r.2 = false := by
  induction rs generalizing seen with
  | nil => cases hr
  | cons a rs ih =>
    rw [routersOk, Bool.and_eq_true, Bool.and_eq_true] at h
    rcases List.mem_cons.1 hr with rfl | hr
    · simpa using h.1.2
    · exact ih h.2 hr

theorem inNetOf_iff {x y : Vip} (hx : x.Proper) (hy : y.Proper) : x.inNetOf y = true ↔ x.v6 = y.v6 ∧ y.Covers x.ip := by
  unfold Vip.inNetOf
  rw [Bool.and_eq_true, beq_iff_eq]
  refine and_congr_right (fun hv => ?_)
  have hw : x.width = y.width := by unfold Vip.width; rw [hv]
  exact Route.contains_inNet (x := y.addr) hy.1 hy.2 (hw ▸ hx.2)

theorem shorter_covers {x y : Vip} (hv : x.v6 = y.v6) (hl : y.len ≤ x.len) {a : Nat} (hx : x.Covers a) (hy : y.Covers a) : y.Covers x.ip := by
  have hw : x.width = y.width := by unfold Vip.width; rw [hv]
  unfold Vip.Covers at *
  rw [hw] at hx
  have hsplit : 2 ^ (y.width - y.len) = 2 ^ (y.width - x.len) * 2 ^ ((y.width - y.len) - (y.width - x.len)) := by
    rw [← Nat.pow_add]; congr 1; omega
  rw [hsplit, ← Nat.div_div_eq_div_mul, ← Nat.div_div_eq_div_mul] at hy
  rw [hsplit, ← Nat.div_div_eq_div_mul, ← Nat.div_div_eq_div_mul, ← hx]
  exact hy

/-- The networks of different VIPs of one router have no address in common. Excepted are link-local VIPs and a VIP that two VLANs
have. -/
theorem router_vips_apart_partial (hk : c.Keyed) {dps : List Dp} (h : parse c = some dps) {d : Dp} (hd : d ∈ dps) {r : Nat × List Vlan}
    (hr : r ∈ d.routers) {u v : Vlan} (hu : u ∈ r.2) (hv : v ∈ r.2) {x y : Vip} (hx : x ∈ u.vips) (hy : y ∈ v.vips) (hne : x ≠ y)
    (hver : x.v6 = y.v6) (hxp : x.Proper) (hyp : y.Proper) (hxl : ¬x.Local) (hyl : ¬y.Local) (a : Nat) : ¬(x.Covers a ∧ y.Covers a) := by
  obtain ⟨dps0, hp⟩ := parse_spec hk h
  obtain ⟨dc, d0, vs, outs, o⟩ := hp.one hd
  have hok := o.ok
  unfold finalOk at hok
  simp only [Bool.and_eq_true] at hok
  have hro := hok.1.2
  rw [o.routers] at hr
  rw [o.read.vlans, ← o.vlans] at hro
  have hov := routersOk_overlap hro hr
  have hxm : x ∈ routerVips r.2 := List.mem_flatMap.2 ⟨u, hu, List.mem_filter.2 ⟨hx, by
    cases hl : x.linkLocal with
    | false => rfl
    | true => exact absurd (local_iff.1 hl) hxl⟩⟩
  have hym : y ∈ routerVips r.2 := List.mem_flatMap.2 ⟨v, hv, List.mem_filter.2 ⟨hy, by
    cases hl : y.linkLocal with
    | false => rfl
    | true => exact absurd (local_iff.1 hl) hyl⟩⟩
  have no : ∀ {x y : Vip}, x ∈ routerVips r.2 → y ∈ routerVips r.2 → x ≠ y → x.inNetOf y ≠ true := by
    intro x y hx hy hne hin
    have : overlap r.2 = true := by
      unfold overlap
      refine List.any_eq_true.2 ⟨x, hx, List.any_eq_true.2 ⟨y, hy, ?_⟩⟩
      rw [Bool.and_eq_true, bne_iff_ne]
      exact ⟨fun h => hne h.symm, hin⟩
    rw [this] at hov; cases hov
  rintro ⟨h1, h2⟩
  rcases Nat.le_total y.len x.len with hl | hl
  · exact no hxm hym hne ((inNetOf_iff hxp hyp).2 ⟨hver, shorter_covers hver hl h1 h2⟩)
  · exact no hym hxm hne.symm ((inNetOf_iff hyp hxp).2 ⟨hver.symm, shorter_covers hver.symm hl h2 h1⟩)

/-! ## As the routing model needs it -/

/-- The VLAN of the routing model, for one version of IP. -/
def Vlan.toRoute (v6 : Bool) (v : Vlan) : Route.Vlan where
  vid := v.vid
  mac := v.mac
  vips := (v.vips.filter (fun x => x.v6 == v6)).map Vip.addr

theorem contains_mod (w : Nat) (n : Route.Net) (a : Nat) : n.contains w a = n.contains w (a % 2 ^ w) := by
  unfold Route.Net.contains
  congr 1
  have hm : Route.mask w n.len < 2 ^ w := by
    unfold Route.mask
    have : 0 < 2 ^ (w - n.len) := Nat.two_pow_pos _
    have : 0 < 2 ^ w := Nat.two_pow_pos _
    omega
  apply Nat.eq_of_testBit_eq
  intro i
  rw [Nat.testBit_and, Nat.testBit_and, Nat.testBit_mod_two_pow]
  by_cases hi : i < w
  · simp [hi]
  · have : (Route.mask w n.len).testBit i = false :=
      Nat.testBit_lt_two_pow (Nat.lt_of_lt_of_le hm (Nat.pow_le_pow_right (by omega) (by omega)))
    simp [this]

/-- An accepted configuration of a switch without a global VLAN is as the routing model (C58) needs it, provided that no VLAN is in two
routers and that no VIP of a VLAN with a router is link-local or a VIP of another VLAN of that router. -/
theorem accepted_routing_partial (hk : c.Keyed) {dps : List Dp} (h : parse c = some dps) {d : Dp} (hd : d ∈ dps) (v6 : Bool) {m : Route.Mgr}
    (hrt : m.routers = d.routers.map (fun r => ⟨r.2.map (Vlan.toRoute v6)⟩)) (hw : m.width = if v6 then 128 else 32)
    (hg : m.isGlobal = false) (hg' : m.globalVid < 4096) (htab : m.fib.id ≠ OF.tableAll) (htabs : m.toL2 ≠ m.vip.id)
    (hproper : ∀ v ∈ d.vlans, ∀ x ∈ v.vips, x.Proper)
    (hone : ∀ r ∈ d.routers, ∀ s ∈ d.routers, ∀ v, v ∈ r.2 → v ∈ s.2 → r = s)
    (hvips : ∀ r ∈ d.routers, ∀ u ∈ r.2, ∀ x ∈ u.vips, ¬x.Local ∧ ∀ v ∈ r.2, x ∈ v.vips → v = u) :
    Route.ConfOk m (d.vlans.map (Vlan.toRoute v6)) := by
  have hn := (vlan_exists_iff hk h hd).1
  have inj : ∀ {u v : Vlan}, u ∈ d.vlans → v ∈ d.vlans → u.vid = v.vid → u = v := fun hu hv he => List.inj_on_of_nodup_map hn hu hv he
  have hmem : ∀ r ∈ d.routers, ∀ u ∈ r.2, u ∈ d.vlans := by
    intro r hr u hu
    obtain ⟨ks, -, -, hm⟩ := (routers_as_configured hk h hd).1 r hr
    obtain ⟨k, -, hden⟩ := (hm u).1 hu
    rcases hden with ⟨-, hv⟩ | ⟨s, pre, post, -, h2, -⟩
    · exact hv
    · rw [h2]; simp
  refine ⟨?_, ?_, hg', ?_, ?_, htab, htabs⟩
  · intro u hu v hv he
    obtain ⟨u0, hu0, rfl⟩ := List.mem_map.1 hu
    obtain ⟨v0, hv0, rfl⟩ := List.mem_map.1 hv
    rw [inj hu0 hv0 he]
  · intro v hv
    obtain ⟨v0, hv0, rfl⟩ := List.mem_map.1 hv
    have := (vlans_as_configured hk h hd hv0).2.1
    show v0.vid < 4096
    omega
  · intro r hr u hu
    rw [hrt] at hr
    obtain ⟨r0, hr0, rfl⟩ := List.mem_map.1 hr
    obtain ⟨u0, hu0, rfl⟩ := List.mem_map.1 hu
    exact List.mem_map_of_mem (hmem r0 hr0 u0 hu0)
  · intro u hu v hv rv ip hru hrv hui hvi
    obtain ⟨u0, hu0, rfl⟩ := List.mem_map.1 hu
    obtain ⟨v0, hv0, rfl⟩ := List.mem_map.1 hv
    have routed : ∀ {w : Vlan}, w ∈ d.vlans → rv ∈ m.routed (w.toRoute v6) →
        rv = w.vid ∨ ∃ r ∈ d.routers, w ∈ r.2 ∧ ∃ t ∈ r.2, t.vid = rv := by
      intro w hwv hrw
      unfold Route.Mgr.routed at hrw
      rw [hg] at hrw
      simp only [Bool.false_eq_true, if_false, List.mem_cons] at hrw
      rcases hrw with hrw | hrw
      · exact .inl hrw
      · right
        obtain ⟨r, hr, hin⟩ := List.mem_flatMap.1 hrw
        obtain ⟨hr, hhas⟩ := List.mem_filter.1 hr
        rw [hrt] at hr
        obtain ⟨r0, hr0, rfl⟩ := List.mem_map.1 hr
        obtain ⟨t', ht', rfl⟩ := List.mem_map.1 hin
        obtain ⟨t, ht, rfl⟩ := List.mem_map.1 ht'
        unfold Route.Router.has at hhas
        obtain ⟨s', hs', he⟩ := List.any_eq_true.1 hhas
        obtain ⟨s, hs, rfl⟩ := List.mem_map.1 hs'
        have he : (s.toRoute v6).vid = (w.toRoute v6).vid := by simpa using he
        rw [inj (hmem r0 hr0 s hs) hwv he] at hs
        exact ⟨r0, hr0, hs, t, ht, rfl⟩
    have same : u0 = v0 ∨ ∃ r ∈ d.routers, u0 ∈ r.2 ∧ v0 ∈ r.2 := by
      rcases routed hu0 hru with h1 | ⟨r, hr, hur, t, ht, h1⟩ <;> rcases routed hv0 hrv with h2 | ⟨s, hs, hvs, t', ht', h2⟩
      · exact .inl (inj hu0 hv0 (h1.symm.trans h2))
      · rw [inj (hmem s hs t' ht') hu0 (h2.trans h1)] at ht'
        exact .inr ⟨s, hs, ht', hvs⟩
      · rw [inj (hmem r hr t ht) hv0 (h1.trans h2)] at ht
        exact .inr ⟨r, hr, hur, ht⟩
      · rw [inj (hmem r hr t ht) (hmem s hs t' ht') (h1.trans h2.symm)] at ht
        have := hone r hr s hs t' ht ht'
        subst this
        exact .inr ⟨r, hr, hur, hvs⟩
    rcases same with rfl | ⟨r, hr, hur, hvr⟩
    · rfl
    · by_contra hne
      rw [Route.vipMap_isSome] at hui hvi
      obtain ⟨x', hx', hxc⟩ := hui
      obtain ⟨y', hy', hyc⟩ := hvi
      obtain ⟨x, hx, rfl⟩ := List.mem_map.1 hx'
      obtain ⟨y, hy, rfl⟩ := List.mem_map.1 hy'
      obtain ⟨hx, hx6⟩ := List.mem_filter.1 hx
      obtain ⟨hy, hy6⟩ := List.mem_filter.1 hy
      have hx6 : x.v6 = v6 := by simpa using hx6
      have hy6 : y.v6 = v6 := by simpa using hy6
      have hxy : x ≠ y := by
        rintro rfl
        have := (hvips r hr u0 hur x hx).2 v0 hvr hy
        exact hne (by rw [this])
      have hwx : m.width = x.width := by rw [hw]; unfold Vip.width; rw [hx6]
      have hwy : m.width = y.width := by rw [hw]; unfold Vip.width; rw [hy6]
      have hxp := hproper u0 hu0 x hx
      have hyp := hproper v0 hv0 y hy
      have hlt : ip % 2 ^ m.width < 2 ^ m.width := Nat.mod_lt _ (Nat.two_pow_pos _)
      rw [contains_mod, hwx] at hxc
      rw [contains_mod, hwy] at hyc
      have cx : x.Covers (ip % 2 ^ m.width) := by
        rw [← hwx] at hxc
        have := (Route.contains_inNet (x := x.addr) (hwx ▸ hxp.1) (hwx ▸ hxp.2) hlt).1 hxc
        unfold Route.InNet at this
        unfold Vip.Covers
        rw [← hwx]; exact this
      have cy : y.Covers (ip % 2 ^ m.width) := by
        rw [← hwy] at hyc
        have := (Route.contains_inNet (x := y.addr) (hwy ▸ hyp.1) (hwy ▸ hyp.2) hlt).1 hyc
        unfold Route.InNet at this
        unfold Vip.Covers
        rw [← hwy]; exact this
      exact router_vips_apart_partial hk h hd hr hur hvr hx hy hxy (hx6.trans hy6.symm) hxp hyp (hvips r hr u0 hur x hx).1
        (hvips r hr v0 hvr y hy).1 _ ⟨cx, cy⟩

end Faucet.Valid
