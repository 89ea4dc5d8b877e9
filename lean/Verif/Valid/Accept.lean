import Verif.Valid.Links

/-!
# Which configurations are accepted (C68)

For configurations without stack ports, routers and ACLs: exactly those that meet the conditions of `Meets`.
-/

namespace Faucet.Valid
open Faucet

variable {c : Conf}

/-! ## The conditions -/

/-- No stack ports, routers and ACLs. -/
structure Conf.NoExtras (c : Conf) : Prop where
  stack : ∀ d ∈ c.dps, ∀ e ∈ d.interfaces, e.2.stack = none
  portAcls : ∀ d ∈ c.dps, ∀ e ∈ d.interfaces, e.2.acls = []
  dpAcls : ∀ d ∈ c.dps, d.dpAcls = []
  vlanAcls : ∀ e ∈ c.vlans, e.2.acls = []
  routers : c.routers = []

/-- A section is found under its name or number. -/
def KeyFits (k : Key) (name : Option Str) (n : Nat) : Prop := name = none ∨ name = some k.str ∨ k = .num n ∨ k = .name (.dec n)

/-- A VLAN section is in order. -/
structure VlanFits (k : Key) (vc : VlanConf) (vid : Nat) : Prop where
  sec : SecVid k vc vid
  range : 1 ≤ vid ∧ vid ≤ 4095
  key : KeyFits k vc.name vid
  vips : ∀ x ∈ vc.vips, x.len ≠ x.width

/-- The settings of an interface go together. -/
structure PortFits (pc : PortConf) : Prop where
  vlans : Special pc → pc.tagged = [] ∧ ∀ k, pc.native = some k → Falsy k
  options : Special pc → pc.permanentLearn = false ∧ pc.hairpin = false ∧ pc.hairpinUnicast = false ∧ pc.lacp = 0 ∧ pc.loopProtect = false ∧
    pc.loopProtectExternal = false ∧ pc.restricted = false ∧ pc.countUntagMiss = false ∧ pc.receiveLldp = false ∧
    (pc.maxHosts = 255 ∨ pc.maxHosts = 0) ∧ pc.other = false
  output : pc.outputOnly = true → pc.coprocessor = false
  hairpin : ¬(pc.hairpin = true ∧ pc.hairpinUnicast = true)

/-- An interface section is in order. -/
structure IfFits (c : Conf) (e : Key × PortConf) (n : Nat) : Prop where
  number : secNum e = .num n
  range : 1 ≤ n ∧ (n ≤ 0xF0000000 ∨ n = 0xfffffffe ∨ n = 0xfffffff8)
  key : KeyFits e.1 e.2.name n
  settings : PortFits e.2
  vlans : ∀ k, e.2.native = some k ∨ k ∈ e.2.tagged → ∃ vid, 1 ≤ vid ∧ vid ≤ 4095 ∧ Means c k vid
  once : ∀ k, e.2.native = some k → ∀ j ∈ e.2.tagged, ∀ vid, Means c k vid → ¬Means c j vid

/-- A switch section is in order. -/
structure DpFits (c : Conf) (d : DpConf) : Prop where
  dpId : 0 ≤ d.dpId ∧ d.dpId < 2 ^ 64
  nonempty : d.interfaces ≠ []
  timeouts : 15 ≤ d.timeout ∧ d.timeout ≤ 65535 ∧ 2 * d.arpTimeout < d.timeout ∧ 2 * d.ndTimeout < d.timeout
  flood : ¬(d.combinatorial = true ∧ d.groupTable = true)
  interfaces : ∀ e, Effective d.interfaces e → ∃ n, IfFits c e n
  mirrors : ∀ e, Effective d.interfaces e → ∀ k ∈ e.2.mirror, ∃ o, Effective d.interfaces o ∧
    (secNum o = k ∨ ∃ s, k = .name s ∧ (o.2.name = some s ∨ (o.2.name = none ∧ o.1.str = s)))
  use : (∃ e, Effective d.interfaces e ∧ (e.2.outputOnly = true ∨ e.2.coprocessor = true)) ∨ c.vlans ≠ [] ∨ ∃ d' ∈ c.dps, ∃ k, Refers d' k
  global : d.globalVlan ≠ 0 → (∀ e ∈ c.vlans, ¬SecVid e.1 e.2 d.globalVlan) ∧ ∀ d' ∈ c.dps, ∀ k, Refers d' k → ¬Means c k d.globalVlan

/-- The configuration is in order. -/
structure Meets (c : Conf) : Prop where
  vlans : c.dps ≠ [] → ∀ e ∈ c.vlans, ∃ vid, VlanFits e.1 e.2 vid
  distinct : c.dps ≠ [] → ∀ e ∈ c.vlans, ∀ e' ∈ c.vlans, ∀ vid, SecVid e.1 e.2 vid → SecVid e'.1 e'.2 vid → e.1 = e'.1
  dps : ∀ d ∈ c.dps, DpFits c d
  dpIds : (c.dps.map (·.dpId)).Nodup

/-! ## One section -/

theorem keyFits_iff {k : Key} {name : Option Str} {n : Nat} : ¬(k.str ≠ .dec (n : Int) ∧ k.str ≠ name.getD k.str) ↔ KeyFits k name n := by
  unfold KeyFits
  cases name with
  | none => simp
  | some s =>
    cases k with
    | num m =>
      simp only [Key.str, Option.getD_some, ne_eq, Str.dec.injEq, not_and, Decidable.not_not, Option.some.injEq, reduceCtorEq, Key.num.injEq,
        or_false, false_or]
      constructor
      · intro h
        by_cases hm : m = n
        · exact .inr hm
        · exact .inl (h hm).symm
      · rintro (h | h) hm
        · exact h.symm
        · exact absurd h hm
    | name t =>
      simp only [Key.str, Option.getD_some, ne_eq, not_and, Decidable.not_not, Option.some.injEq, reduceCtorEq, Key.name.injEq, false_or]
      constructor
      · intro h
        by_cases hm : t = .dec n
        · exact .inr hm
        · exact .inl (h hm).symm
      · rintro (h | h) hm
        · exact h.symm
        · exact absurd h hm

theorem isHost_iff {x : Vip} : x.isHost = true ↔ x.len = x.width := by
  unfold Vip.isHost Vip.width
  rw [beq_iff_eq]

theorem secVid_key {k : Key} {vc : VlanConf} {vid : Nat} : vc.vidKey k = .num (vid : Int) ↔ SecVid k vc vid := by
  unfold VlanConf.vidKey SecVid
  cases vc.vid with
  | none => simp
  | some n => simp

theorem mkVlan_some {k : Key} {vc : VlanConf} {vid : Nat} (h : SecVid k vc vid) (hr : 1 ≤ vid ∧ vid ≤ 4095) (hv : ∀ x ∈ vc.vips, x.len ≠ x.width) :
    ∃ v, mkVlan k vc = some v ∧ v.vid = vid := by
  unfold mkVlan
  rw [secVid_key.2 h]
  simp only
  rw [if_neg]
  · exact ⟨_, rfl, by simp⟩
  · rw [Bool.or_eq_true, not_or]
    constructor
    · unfold validVid
      simp only [Bool.not_eq_true', Bool.and_eq_false_iff, decide_eq_false_iff_not, not_or, Decidable.not_not]
      omega
    · rw [List.any_eq_true]
      rintro ⟨x, hx, hh⟩
      exact hv x hx (isHost_iff.1 hh)

theorem portNumber_iff {e : Key × PortConf} (hst : e.2.stack = none) (hac : e.2.acls = []) {n : Nat} :
    portNumber e.1 e.2 = some n ↔
      secNum e = .num n ∧ (1 ≤ n ∧ (n ≤ 0xF0000000 ∨ n = 0xfffffffe ∨ n = 0xfffffff8)) ∧ KeyFits e.1 e.2.name n ∧ PortFits e.2 := by
  have hbad : e.2.bad = false ↔ PortFits e.2 := by
    have hsp : Special e.2 ↔ e.2.nonVlan = true := by
      unfold PortConf.nonVlan Special
      rw [hst]
      simp only [Option.isSome_none, Bool.false_or, Bool.or_eq_true, Bool.not_eq_true', List.isEmpty_eq_false_iff, ne_eq, not_true, false_or]
      constructor
      · rintro (h | h | h)
        · exact .inl (.inl h)
        · exact .inr h
        · exact .inl (.inr h)
      · rintro ((h | h) | h)
        · exact .inl h
        · exact .inr (.inr h)
        · exact .inr (.inl h)
    have hvp : e.2.vlanPort = false ↔ e.2.tagged = [] ∧ ∀ k, e.2.native = some k → Falsy k := by
      unfold PortConf.vlanPort
      rw [Bool.or_eq_false_iff, Bool.not_eq_false', List.isEmpty_iff]
      refine and_congr Iff.rfl ?_
      cases e.2.native with
      | none => simp
      | some k =>
        have : k.truthy = false ↔ Falsy k := by
          unfold Key.truthy Falsy
          rw [Bool.and_eq_false_iff]
          simp only [bne_eq_false_iff_eq]
        simp [this]
    have hvo : e.2.vlanOption = false ↔ e.2.permanentLearn = false ∧ e.2.hairpin = false ∧ e.2.hairpinUnicast = false ∧ e.2.lacp = 0 ∧
        e.2.loopProtect = false ∧ e.2.loopProtectExternal = false ∧ e.2.restricted = false ∧ e.2.countUntagMiss = false ∧
        e.2.receiveLldp = false ∧ (e.2.maxHosts = 255 ∨ e.2.maxHosts = 0) ∧ e.2.other = false := by
      unfold PortConf.vlanOption
      rw [hac]
      simp only [Bool.or_eq_false_iff, bne_eq_false_iff_eq, Bool.and_eq_false_iff, List.isEmpty_nil, Bool.not_true, Bool.false_and, and_true, and_assoc]
    have hcl : e.2.clash = false ↔ (e.2.outputOnly = true → e.2.coprocessor = false) := by
      unfold PortConf.clash
      rw [hst]
      cases e.2.outputOnly <;> cases e.2.mirror.isEmpty <;> simp
    unfold PortConf.bad
    simp only [Bool.or_eq_false_iff, Bool.and_eq_false_iff]
    constructor
    · rintro ⟨⟨⟨h1, h2⟩, h3⟩, h4⟩
      refine ⟨fun hs => ?_, fun hs => ?_, hcl.1 h2, ?_⟩
      · rw [hsp] at hs
        rcases h1 with h1 | h1
        · exact hvp.1 h1
        · rw [hs] at h1; cases h1
      · rw [hsp] at hs
        rcases h3 with h3 | h3
        · rw [hs] at h3; cases h3
        · exact hvo.1 h3
      · rintro ⟨ha, hb⟩
        rcases h4 with h4 | h4
        · rw [ha] at h4; cases h4
        · rw [hb] at h4; cases h4
    · rintro ⟨h1, h2, h3, h4⟩
      refine ⟨⟨⟨?_, hcl.2 h3⟩, ?_⟩, ?_⟩
      · cases hs : e.2.nonVlan with
        | false => exact .inr rfl
        | true => exact .inl (hvp.2 (h1 (hsp.2 hs)))
      · cases hs : e.2.nonVlan with
        | false => exact .inl rfl
        | true => exact .inr (hvo.2 (h2 (hsp.2 hs)))
      · cases ha : e.2.hairpin with
        | false => exact .inl rfl
        | true =>
          cases hb : e.2.hairpinUnicast with
          | false => exact .inr rfl
          | true => exact absurd ⟨ha, hb⟩ h4
  have hign : ∀ {n : Int}, 0 < n → (ignorePort n = false ↔ (n ≤ 0xF0000000 ∨ n = 0xfffffffe ∨ n = 0xfffffff8)) := by
    intro n hn
    unfold ignorePort
    split
    · rename_i h
      simp only [true_iff]
      omega
    · rename_i h
      rw [decide_eq_false_iff_not]
      omega
  constructor
  · intro h
    obtain ⟨h1, h2, h3, h4, h5⟩ := portNumber_spec h
    have h6 := (hign (n := n) (by omega)).1 h3
    refine ⟨h1, ⟨h2, by omega⟩, ?_, hbad.1 h4⟩
    rw [← keyFits_iff]
    rintro ⟨ha, hb⟩
    rcases h5 with h5 | h5
    · exact ha h5
    · exact hb h5
  · rintro ⟨h1, ⟨h2, h3⟩, h4, h5⟩
    unfold portNumber
    rw [secNum_eq] at h1
    rw [h1]
    simp only
    have h6 := (hign (n := n) (by omega)).2 (by omega)
    rw [if_neg (by rw [Bool.or_eq_true, h6]; simp; omega), hbad.2 h5, if_neg (by simp), PortConf.nameStr, if_neg (keyFits_iff.2 h4)]
    simp

/-! ## Success of each stage -/

theorem parseVlans_some (hk : c.Keyed) (hv : ∀ e ∈ c.vlans, ∃ vid, VlanFits e.1 e.2 vid)
    (hd : ∀ e ∈ c.vlans, ∀ e' ∈ c.vlans, ∀ vid, SecVid e.1 e.2 vid → SecVid e'.1 e'.2 vid → e.1 = e'.1) : ∃ vs, parseVlans c.vlans = some vs := by
  have gen : ∀ (l pre : List (Key × VlanConf)) (vs : Dict Key Vlan), c.vlans = pre ++ l → SInv pre vs → ∃ vs', l.foldlM addVlan vs = some vs' := by
    intro l
    induction l with
    | nil => intro pre vs _ _; exact ⟨vs, rfl⟩
    | cons kc l ih =>
      intro pre vs hl hi
      have hmem : kc ∈ c.vlans := by rw [hl]; simp
      obtain ⟨vid, hf⟩ := hv kc hmem
      obtain ⟨v, hmk, hvv⟩ := mkVlan_some hf.sec hf.range hf.vips
      have hname := (mkVlan_spec hmk).2.2.2.1
      have hkn : kc.1 ∉ pre.map (·.1) := by
        intro hm
        have hn := hk.vlans
        rw [hl, List.map_append, List.nodup_append] at hn
        exact hn.2.2 _ hm _ (by simp) rfl
      have hadd : addVlan vs kc = some (vs.set kc.1 v) := by
        unfold addVlan
        rw [hmk]
        simp only
        rw [if_neg (by rw [hvv, hname]; exact keyFits_iff.2 hf.key), if_neg]
        rw [List.any_eq_true]
        rintro ⟨u, hu, huv⟩
        obtain ⟨e, he, rfl⟩ := List.mem_map.1 hu
        obtain ⟨vc, h1, h2, -⟩ := hi.origin e he
        have huv : e.2.vid = v.vid := by simpa using huv
        have h3 := (mkVlan_spec h2).1
        rw [huv, hvv] at h3
        have := hd (e.1, vc) (by rw [hl]; exact List.mem_append_left _ h1) kc hmem vid h3 hf.sec
        exact hkn (List.mem_map.2 ⟨_, h1, this⟩)
      obtain ⟨vs', h⟩ := ih (pre ++ [kc]) (vs.set kc.1 v) (by rw [hl]; simp) (addVlan_inv hkn hi hadd)
      exact ⟨vs', by rw [List.foldlM_cons, hadd]; exact h⟩
  exact gen c.vlans [] [] rfl ⟨nofun, nofun, by simp, by simp [Dict.keys]⟩

theorem getVlan_some {R : Key → Prop} {vs : Dict Key Vlan} (h : VInv c R vs) {k : Key} {vid : Nat} (hr : 1 ≤ vid ∧ vid ≤ 4095)
    (hm : Means c k vid) : ∃ r, getVlan vs k = some r := by
  unfold getVlan
  cases hg : vs.get? k with
  | some v => exact ⟨_, rfl⟩
  | none =>
    have hkn : k ∉ vs.keys := Dict.get?_eq_none_iff.1 hg
    rcases hm with ⟨vc, h1, -⟩ | ⟨-, h2⟩
    · exact absurd (h.secs _ h1) hkn
    · simp only
      cases vs.values.find? (fun v => k == .num v.vid) with
      | some v => exact ⟨_, rfl⟩
      | none =>
        subst h2
        obtain ⟨v, hv, -⟩ := mkVlan_some (k := .num vid) (vc := {}) (vid := vid) (.inr ⟨rfl, rfl⟩) hr nofun
        simp only
        rw [hv]
        exact ⟨_, rfl⟩

theorem getVlans_some {R : Key → Prop} {ks : List Key} {vs : Dict Key Vlan} (h : VInv c R vs)
    (hks : ∀ k ∈ ks, R k ∧ ∃ vid, 1 ≤ vid ∧ vid ≤ 4095 ∧ Means c k vid) : ∃ r, getVlans vs ks = some r := by
  induction ks generalizing vs with
  | nil => exact ⟨_, rfl⟩
  | cons k ks ih =>
    obtain ⟨hR, vid, h1, h2, hm⟩ := hks k List.mem_cons_self
    obtain ⟨⟨vs1, v⟩, hg⟩ := getVlan_some h ⟨h1, h2⟩ hm
    obtain ⟨a1, -, -⟩ := getVlan_spec h hR hg
    obtain ⟨r, hr⟩ := ih a1 (fun k hk => hks k (List.mem_cons_of_mem _ hk))
    rw [getVlans, hg]
    simp only
    rw [hr]
    exact ⟨_, rfl⟩

theorem parsePorts_some {R : Key → Prop} {l : List (Key × PortConf)} {vs : Dict Key Vlan} (h : VInv c R vs)
    (hl : ∀ e ∈ l, (∃ n, portNumber e.1 e.2 = some n) ∧
      ∀ k, e.2.native = some k ∨ k ∈ e.2.tagged → R k ∧ ∃ vid, 1 ≤ vid ∧ vid ≤ 4095 ∧ Means c k vid) : ∃ r, parsePorts vs l = some r := by
  induction l generalizing vs with
  | nil => exact ⟨_, rfl⟩
  | cons e l ih =>
    obtain ⟨⟨n, hn⟩, hv⟩ := hl e List.mem_cons_self
    have hp : ∃ r, parsePort vs e.1 e.2 = some r := by
      unfold parsePort
      rw [hn]
      simp only
      have hnat : ∃ r, getNative vs e.2.native = some r := by
        unfold getNative
        cases hk : e.2.native with
        | none => exact ⟨_, rfl⟩
        | some k =>
          obtain ⟨-, vid, h1, h2, hm⟩ := hv k (.inl hk)
          obtain ⟨r, hr⟩ := getVlan_some h ⟨h1, h2⟩ hm
          simp only
          rw [hr]
          exact ⟨_, rfl⟩
      obtain ⟨⟨vs1, nat⟩, hg⟩ := hnat
      rw [hg]
      simp only
      obtain ⟨a1, -⟩ := getNative_spec h (fun j hj => (hv j (.inl hj)).1) hg
      obtain ⟨r, hr⟩ := getVlans_some a1 (fun k hk => hv k (.inr hk))
      rw [hr]
      exact ⟨_, rfl⟩
    obtain ⟨⟨vs1, p⟩, hp⟩ := hp
    obtain ⟨a1, -⟩ := parsePort_spec h (fun j hj => (hv j hj).1) hp
    obtain ⟨r, hr⟩ := ih a1 (fun e he => hl e (List.mem_cons_of_mem _ he))
    rw [parsePorts, hp]
    simp only
    rw [hr]
    exact ⟨_, rfl⟩

theorem mapM_some {α β : Type} {f : α → Option β} {l : List α} (h : ∀ a ∈ l, ∃ b, f a = some b) : ∃ r, l.mapM f = some r := by
  induction l with
  | nil => exact ⟨[], rfl⟩
  | cons a l ih =>
    obtain ⟨b, hb⟩ := h a List.mem_cons_self
    obtain ⟨r, hr⟩ := ih (fun a ha => h a (List.mem_cons_of_mem _ ha))
    exact ⟨b :: r, by rw [List.mapM_cons, hb, hr]; rfl⟩

theorem bad_iff {d : DpConf} : d.bad = false ↔ (0 ≤ d.dpId ∧ d.dpId < 2 ^ 64) ∧ d.interfaces ≠ [] ∧
    (15 ≤ d.timeout ∧ d.timeout ≤ 65535 ∧ 2 * d.arpTimeout < d.timeout ∧ 2 * d.ndTimeout < d.timeout) ∧
    ¬(d.combinatorial = true ∧ d.groupTable = true) := by
  unfold DpConf.bad
  simp only [Bool.or_eq_false_iff, decide_eq_false_iff_not, Bool.not_eq_false', decide_eq_true_eq, List.isEmpty_eq_false_iff, Bool.and_eq_false_iff]
  constructor
  · rintro ⟨⟨⟨⟨⟨⟨⟨a, b⟩, e⟩, f⟩, g⟩, h⟩, i⟩, j⟩
    refine ⟨⟨by omega, by omega⟩, e, ⟨by omega, by omega, h, i⟩, ?_⟩
    rintro ⟨k, l⟩
    rw [k, l] at j
    rcases j with j | j <;> cases j
  · rintro ⟨⟨a, b⟩, e, ⟨f, g, h, i⟩, j⟩
    refine ⟨⟨⟨⟨⟨⟨⟨by omega, by omega⟩, e⟩, by omega⟩, by omega⟩, h⟩, i⟩, ?_⟩
    cases hc : d.combinatorial with
    | false => exact .inl rfl
    | true =>
      cases hg : d.groupTable with
      | false => exact .inr rfl
      | true => exact absurd ⟨hc, hg⟩ j

theorem Effective.mem {l : List (Key × PortConf)} {e : Key × PortConf} (h : Effective l e) : e ∈ l := by
  obtain ⟨pre, post, rfl, -⟩ := h
  simp

theorem addImplicits_some {ks : List Key} (h : ∀ k ∈ ks, ∃ v, mkVlan k {} = some v) (vs : Dict Key Vlan) :
    ∃ vs', ks.foldlM addImplicit vs = some vs' := by
  induction ks generalizing vs with
  | nil => exact ⟨vs, rfl⟩
  | cons k ks ih =>
    obtain ⟨v, hv⟩ := h k List.mem_cons_self
    have : ∃ vs1, addImplicit vs k = some vs1 := by
      unfold addImplicit
      rw [hv]
      split
      · exact ⟨_, rfl⟩
      · exact ⟨_, rfl⟩
    obtain ⟨vs1, h1⟩ := this
    obtain ⟨vs2, h2⟩ := ih (fun k hk => h k (List.mem_cons_of_mem _ hk)) vs1
    exact ⟨vs2, by rw [List.foldlM_cons, h1]; exact h2⟩

theorem parseDp_some (hk : c.Keyed) (hx : c.NoExtras) (hm : Meets c) {d : DpConf} (hd : d ∈ c.dps) : ∃ r, parseDp c d = some r := by
  have hne : c.dps ≠ [] := List.ne_nil_of_mem hd
  have hf := hm.dps d hd
  obtain ⟨vs, hvs⟩ := parseVlans_some hk (hm.vlans hne) (hm.distinct hne)
  unfold parseDp
  rw [bad_iff.2 ⟨hf.dpId, hf.nonempty, hf.timeouts, hf.flood⟩, hvs]
  simp only [Bool.false_eq_true, if_false]
  obtain ⟨r, hr⟩ := parsePorts_some (R := Refers d) (l := (portMap d.interfaces).values) (VInv.of_sections hk hvs _) (by
    intro e he
    have hef := mem_portMap.1 he
    obtain ⟨n, hn⟩ := hf.interfaces e hef
    refine ⟨⟨n, (portNumber_iff (hx.stack d hd e hef.mem) (hx.portAcls d hd e hef.mem)).2 ⟨hn.number, hn.range, hn.key, hn.settings⟩⟩, ?_⟩
    intro k hkk
    exact ⟨⟨e, hef, hkk⟩, hn.vlans k hkk⟩)
  rw [hr]
  exact ⟨_, rfl⟩

theorem resetRefs_some (hk : c.Keyed) {ds : List (DpConf × Dict Key Vlan × List Port)} (hds : c.dps.mapM (parseDp c) = some ds)
    (t : DpConf × Dict Key Vlan × List Port) : ∃ d, resetRefs c ds t = some d := by
  unfold resetRefs
  obtain ⟨vs, h⟩ := addImplicits_some (ks := implicitKeys c ds) (by
    intro k hkm
    obtain ⟨t', ht', hkt⟩ := List.mem_flatMap.1 hkm
    obtain ⟨hkk, hno⟩ := List.mem_filter.1 hkt
    obtain ⟨dc, hdc, hp⟩ := mem_of_forall₂ (mapM_forall₂ hds) ht'
    obtain ⟨d', vs', ps'⟩ := t'
    obtain ⟨rfl, hi⟩ := parseDp_spec hk hp
    obtain ⟨v, hv⟩ := mem_keys_iff.1 hkk
    rcases hi.vlans.origin _ hv with ⟨vc, h1, -⟩ | ⟨-, -, h2⟩
    · have : c.vlans.any (fun e => e.1 == k) = true := List.any_eq_true.2 ⟨_, h1, by simp⟩
      rw [this] at hno; cases hno
    · exact ⟨v, h2⟩) t.2.1
  rw [h]
  exact ⟨_, rfl⟩

/-! ## VLANs and ports of a switch that is read -/

theorem read_vlan {dc : DpConf} {d : Dp} {vs : Dict Key Vlan} (h : Read c dc d vs) {v : Vlan} (hv : v ∈ d.vlans) :
    (∃ e ∈ c.vlans, SecVid e.1 e.2 v.vid) ∨ ∃ d' ∈ c.dps, ∃ k, Refers d' k ∧ Means c k v.vid := by
  rw [h.vlans] at hv
  obtain ⟨v0, hv0, rfl⟩ := List.mem_map.1 hv
  obtain ⟨⟨k, v1⟩, he, rfl⟩ := List.mem_map.1 hv0
  have ho := h.inv.vlans.origin _ he
  rcases ho with ⟨vc, h1, h2⟩ | ⟨h1, ⟨d', hd', hr⟩, h2⟩
  · exact .inl ⟨_, h1, (mkVlan_spec h2).1⟩
  · exact .inr ⟨d', hd', k, hr, (h.inv.vlans.origin _ he).means⟩

theorem read_noAcls (hx : c.NoExtras) {dc : DpConf} (hdc : dc ∈ c.dps) {d : Dp} {vs : Dict Key Vlan} (h : Read c dc d vs) :
    (∀ p ∈ d.ports, p.acls = [] ∧ p.stack = none) ∧ d.usedAcls = [] := by
  have hp : ∀ p ∈ d.ports, p.acls = [] ∧ p.stack = none := by
    intro p hp
    obtain ⟨e, he, hf⟩ := mem_of_forall₂ h.inv.secs hp
    have hef := (mem_portMap.1 he).mem
    exact ⟨hf.settingsOf.acls.trans (hx.portAcls dc hdc e hef), hf.settingsOf.stack.trans (hx.stack dc hdc e hef)⟩
  refine ⟨hp, ?_⟩
  rw [List.eq_nil_iff_forall_not_mem]
  intro a ha
  rcases mem_usedAcls.1 ha with ⟨v, hv, hav⟩ | ⟨p, hpp, hap⟩ | had
  · rw [h.vlans] at hv
    obtain ⟨v0, hv0, rfl⟩ := List.mem_map.1 hv
    obtain ⟨⟨k, v1⟩, he, rfl⟩ := List.mem_map.1 hv0
    have hav : a ∈ v1.acls := hav
    rcases h.inv.vlans.origin _ he with ⟨vc, h1, h2⟩ | ⟨h1, -, h2⟩
    · have := (mkVlan_spec h2).2.2.2.2.2.1
      rw [this, hx.vlanAcls _ h1] at hav
      cases hav
    · have := (mkVlan_spec h2).2.2.2.2.2.1
      rw [this] at hav
      cases hav
  · rw [(hp p hpp).1] at hap
    cases hap
  · rw [h.conf, hx.dpAcls dc hdc] at had
    cases had

theorem resolve_isSome {ports : List Port} {k : Key} :
    (resolvePort ports k).isSome = true ↔ ∃ p ∈ ports, k = .num p.number ∨ k = .name p.name := by
  cases k with
  | num n =>
    unfold resolvePort
    rw [List.find?_isSome]
    constructor
    · rintro ⟨p, hp, h⟩
      exact ⟨p, hp, .inl (by simpa using (of_decide_eq_true h).symm)⟩
    · rintro ⟨p, hp, h | h⟩
      · injection h with h
        exact ⟨p, hp, decide_eq_true h.symm⟩
      · cases h
  | name s =>
    unfold resolvePort
    rw [List.find?_isSome]
    constructor
    · rintro ⟨p, hp, h⟩
      exact ⟨p, hp, .inr (by rw [of_decide_eq_true h])⟩
    · rintro ⟨p, hp, h | h⟩
      · cases h
      · injection h with h
        exact ⟨p, hp, decide_eq_true h.symm⟩

theorem name_of {e : Key × PortConf} {p : Port} (h : FromSec c e p) (s : Str) :
    p.name = s ↔ e.2.name = some s ∨ (e.2.name = none ∧ e.1.str = s) := by
  have : p.name = e.2.nameStr e.1 := by rw [h.port]; rfl
  rw [this]
  unfold PortConf.nameStr
  cases e.2.name <;> simp

theorem mirrors_iff {dc : DpConf} {d : Dp} {vs : Dict Key Vlan} (h : Read c dc d vs) :
    (∀ p ∈ d.ports, ∀ k ∈ p.mirrorOf, (resolvePort d.ports k).isSome = true) ↔
    ∀ e, Effective dc.interfaces e → ∀ k ∈ e.2.mirror, ∃ o, Effective dc.interfaces o ∧
      (secNum o = k ∨ ∃ s, k = .name s ∧ (o.2.name = some s ∨ (o.2.name = none ∧ o.1.str = s))) := by
  constructor
  · intro hp e he k hkm
    obtain ⟨p, hpp, hf⟩ := mem_of_forall₂' h.inv.secs (mem_portMap.2 he)
    obtain ⟨q, hq, hqk⟩ := resolve_isSome.1 (hp p hpp k (by rw [hf.settingsOf.mirrorOf]; exact hkm))
    obtain ⟨o, ho, hof⟩ := mem_of_forall₂ h.inv.secs hq
    refine ⟨o, mem_portMap.1 ho, ?_⟩
    rcases hqk with hqk | hqk
    · exact .inl (by rw [hof.num_eq, hqk])
    · exact .inr ⟨q.name, hqk, (name_of hof _).1 rfl⟩
  · intro hm p hp k hkm
    obtain ⟨e, he, hf⟩ := mem_of_forall₂ h.inv.secs hp
    rw [hf.settingsOf.mirrorOf] at hkm
    obtain ⟨o, ho, hok⟩ := hm e (mem_portMap.1 he) k hkm
    obtain ⟨q, hq, hof⟩ := mem_of_forall₂' h.inv.secs (mem_portMap.2 ho)
    refine resolve_isSome.2 ⟨q, hq, ?_⟩
    rcases hok with hok | ⟨s, hks, hos⟩
    · exact .inl (by rw [← hof.num_eq, hok])
    · exact .inr (by rw [hks, (name_of hof s).2 hos])

theorem finalOk_iff (hk : c.Keyed) (hx : c.NoExtras) {dc : DpConf} (hdc : dc ∈ c.dps) {d : Dp} {vs : Dict Key Vlan} (h : Read c dc d vs) :
    finalOk c d = true ↔
      ((∃ e, Effective dc.interfaces e ∧ (e.2.outputOnly = true ∨ e.2.coprocessor = true)) ∨ c.vlans ≠ [] ∨ ∃ d' ∈ c.dps, ∃ k, Refers d' k) ∧
      (dc.globalVlan ≠ 0 → (∀ e ∈ c.vlans, ¬SecVid e.1 e.2 dc.globalVlan) ∧ ∀ d' ∈ c.dps, ∀ k, Refers d' k → ¬Means c k dc.globalVlan) ∧
      ∀ e, Effective dc.interfaces e → ∀ k, e.2.native = some k → ∀ j ∈ e.2.tagged, ∀ vid, Means c k vid → ¬Means c j vid := by
  obtain ⟨hna, -⟩ := read_noAcls hx hdc h
  have hacl : d.ports.any (fun p => !p.acls.isEmpty) = false := by
    rw [List.any_eq_false]
    intro p hp
    rw [(hna p hp).1]; simp
  have hrt : dpRouters c d.vlans = [] := by unfold dpRouters; rw [hx.routers]; rfl
  have hall : ∀ vid, (∃ v ∈ d.vlans, v.vid = vid) ↔
      (∃ e ∈ c.vlans, SecVid e.1 e.2 vid) ∨ ∃ d' ∈ c.dps, ∃ k, Refers d' k ∧ Means c k vid := by
    intro vid
    constructor
    · rintro ⟨v, hv, rfl⟩
      exact read_vlan h hv
    · rw [h.vlans]
      rintro (⟨⟨k, vc⟩, he, hs⟩ | ⟨d', hd', k, hr, hm⟩)
      · obtain ⟨v, hv⟩ := mem_keys_iff.1 (h.inv.vlans.secs _ he)
        exact ⟨_, List.mem_map_of_mem (List.mem_map.2 ⟨_, hv, rfl⟩), means_det hk (h.inv.vlans.origin _ hv).means (.inl ⟨vc, he, hs⟩)⟩
      · obtain ⟨v, hv, hm'⟩ := h.all k ⟨d', hd', hr⟩
        exact ⟨_, List.mem_map_of_mem hv, means_det hk hm' hm⟩
  unfold finalOk
  rw [hacl, hrt, h.conf]
  simp only [Bool.and_eq_true, Bool.not_eq_true', routersOk, Bool.false_and, and_true, Bool.and_eq_false_iff, List.isEmpty_eq_false_iff, Bool.not_false,
    Bool.not_eq_false', bne_eq_false_iff_eq, List.any_eq_true, List.any_eq_false, beq_iff_eq, List.all_eq_true, and_assoc, true_and]
  refine and_congr ?_ (and_congr ?_ ?_)
  · constructor
    · rintro (hv | ⟨p, hp, hpn⟩)
      · obtain ⟨v, hv⟩ := List.exists_mem_of_ne_nil _ hv
        rcases read_vlan h hv with ⟨e, he, -⟩ | ⟨d', hd', k, hr, -⟩
        · exact .inr (.inl (List.ne_nil_of_mem he))
        · exact .inr (.inr ⟨d', hd', k, hr⟩)
      · obtain ⟨e, he, hf⟩ := mem_of_forall₂ h.inv.secs hp
        left
        refine ⟨e, mem_portMap.1 he, ?_⟩
        have hout : p.outputOnly = e.2.outputOnly := by rw [hf.port]; rfl
        unfold Port.nonVlan at hpn
        rw [(hna p hp).2, hout, hf.settingsOf.coprocessor] at hpn
        simpa using hpn
    · rintro (⟨e, he, ho⟩ | hv | ⟨d', hd', k, hr⟩)
      · obtain ⟨p, hp, hf⟩ := mem_of_forall₂' h.inv.secs (mem_portMap.2 he)
        right
        refine ⟨p, hp, ?_⟩
        have hout : p.outputOnly = e.2.outputOnly := by rw [hf.port]; rfl
        unfold Port.nonVlan
        rw [(hna p hp).2, hout, hf.settingsOf.coprocessor]
        simpa using ho
      · left
        obtain ⟨e, he⟩ := List.exists_mem_of_ne_nil _ hv
        obtain ⟨v, hv⟩ := mem_keys_iff.1 (h.inv.vlans.secs _ he)
        rw [h.vlans]
        exact List.ne_nil_of_mem (List.mem_map_of_mem (List.mem_map.2 ⟨_, hv, rfl⟩))
      · left
        obtain ⟨v, hv, -⟩ := h.all k ⟨d', hd', hr⟩
        rw [h.vlans]
        exact List.ne_nil_of_mem (List.mem_map_of_mem hv)
  · constructor
    · intro hg hg0
      rcases hg with hg | hg
      · exact absurd hg hg0
      · refine ⟨fun e he hs => ?_, fun d' hd' k hr hm => ?_⟩
        · obtain ⟨v, hv, hvv⟩ := (hall dc.globalVlan).2 (.inl ⟨e, he, hs⟩)
          exact hg v hv hvv
        · obtain ⟨v, hv, hvv⟩ := (hall dc.globalVlan).2 (.inr ⟨d', hd', k, hr, hm⟩)
          exact hg v hv hvv
    · intro hg
      by_cases hg0 : dc.globalVlan = 0
      · exact .inl hg0
      · right
        intro v hv hvv
        obtain ⟨h1, h2⟩ := hg hg0
        rcases (hall dc.globalVlan).1 ⟨v, hv, hvv⟩ with ⟨e, he, hs⟩ | ⟨d', hd', k, hr, hm⟩
        · exact h1 e he hs
        · exact h2 d' hd' k hr hm
  · constructor
    · intro hp e he k hkn j hj vid hmk hmj
      obtain ⟨p, hpp, hf⟩ := mem_of_forall₂' h.inv.secs (mem_portMap.2 he)
      have h1 := ((hf.vlansOf hk).native vid).2 ⟨k, hkn, hmk⟩
      have h2 := ((hf.vlansOf hk).tagged vid).2 ⟨j, hj, hmj⟩
      have := hp p hpp
      rw [h1] at this
      simp [h2] at this
    · intro he p hp
      obtain ⟨e, hee, hf⟩ := mem_of_forall₂ h.inv.secs hp
      cases hpn : p.native with
      | none => simp
      | some vid =>
        obtain ⟨k, hkn, hmk⟩ := ((hf.vlansOf hk).native vid).1 hpn
        have : vid ∉ p.tagged := by
          intro hm
          obtain ⟨j, hj, hmj⟩ := ((hf.vlansOf hk).tagged vid).1 hm
          exact he e (mem_portMap.1 hee) k hkn j hj vid hmk hmj
        simpa using this

theorem topologyOk_plain {dps : List Dp} (h : ∀ d ∈ dps, ∀ p ∈ d.ports, p.stack = none) : topologyOk dps = true := by
  have hst : ∀ d ∈ dps, d.stacked = false := by
    intro d hd
    unfold Dp.stacked
    rw [List.any_eq_false]
    intro p hp
    rw [h d hd p hp]; simp
  have hc : rootCands dps = [] := by
    unfold rootCands
    rw [List.filter_eq_nil_iff]
    intro d hd
    rw [hst d hd]; simp
  unfold topologyOk
  simp only [hc, isort]
  rw [Bool.not_eq_true', List.any_eq_false]
  intro d hd
  rw [hst d hd]; simp

/-- A configuration without stack ports, routers and ACLs is accepted if and only if it is in order. -/
theorem accepted_iff (hk : c.Keyed) (hx : c.NoExtras) : (∃ dps, parse c = some dps) ↔ Meets c := by
  constructor
  · rintro ⟨dps, h⟩
    obtain ⟨dps0, hpp⟩ := parse_spec hk h
    have one : ∀ dc ∈ c.dps, ∃ d0 d vs outs, One c dps0 dc d0 d vs outs := by
      intro dc hdc
      obtain ⟨d0, hd0, vs, hr⟩ := mem_of_forall₂' hpp.read hdc
      obtain ⟨d, hd, hf⟩ := mem_of_forall₂' hpp.final hd0
      obtain ⟨h1, h2, h3, outs, h4, h5, h6, h7, h8⟩ := finalizeDp_spec hf
      exact ⟨d0, d, vs, outs, hdc, hd0, hr, h1, h2, h3, h4, h5.trans hr.conf, h6, h7.trans hr.vlans, by rw [h8, h7]⟩
    have hsec : c.dps ≠ [] → ∃ vs, parseVlans c.vlans = some vs := by
      intro hne
      unfold parse at h
      split at h
      · cases h
      · rename_i ds hds
        obtain ⟨dc, hdc⟩ := List.exists_mem_of_ne_nil _ hne
        obtain ⟨t, ht, hp⟩ := mem_of_forall₂' (mapM_forall₂ hds) hdc
        unfold parseDp at hp
        split at hp
        · cases hp
        · split at hp
          · cases hp
          · rename_i vs hvs
            exact ⟨vs, hvs⟩
    refine ⟨?_, ?_, ?_, (dpids_distinct hk h).1⟩
    · intro hne e he
      obtain ⟨vs, hvs⟩ := hsec hne
      have hi := parseVlans_inv hk.vlans hvs
      obtain ⟨v, hv⟩ := mem_keys_iff.1 (hi.secs e he)
      obtain ⟨vc, h1, h2, h3⟩ := hi.origin _ hv
      have hvc := List.inj_on_of_nodup_map hk.vlans h1 he rfl
      have hvc' : vc = e.2 := by rw [← hvc]
      subst hvc'
      have hs := mkVlan_spec h2
      refine ⟨v.vid, hs.1, ⟨hs.2.1, hs.2.2.1⟩, ?_, ?_⟩
      · rw [hs.2.2.2.1] at h3
        exact keyFits_iff.1 h3
      · intro x hx hl
        have := hs.2.2.2.2.2.2.2.2.2.2.2 x hx
        rw [isHost_iff.2 hl] at this
        cases this
    · intro hne e he e' he' vid hs hs'
      obtain ⟨vs, hvs⟩ := hsec hne
      have hi := VInv.of_sections hk hvs (fun _ => True)
      obtain ⟨v, hv⟩ := mem_keys_iff.1 (hi.secs e he)
      obtain ⟨v', hv'⟩ := mem_keys_iff.1 (hi.secs e' he')
      have e1 : v.vid = vid := means_det hk (hi.origin _ hv).means (.inl ⟨_, he, hs⟩)
      have e2 : v'.vid = vid := means_det hk (hi.origin _ hv').means (.inl ⟨_, he', hs'⟩)
      have := List.inj_on_of_nodup_map hi.vids hv hv' (by show v.vid = v'.vid; rw [e1, e2])
      exact (Prod.mk.inj this).1
    · intro dc hdc
      obtain ⟨d0, d, vs, outs, o⟩ := one dc hdc
      obtain ⟨b1, b2, b3, b4⟩ := bad_iff.1 o.read.inv.bad
      obtain ⟨f1, f2, f3⟩ := (finalOk_iff hk hx hdc o.read).1 o.ok
      refine ⟨b1, b2, b3, b4, ?_, (mirrors_iff o.read).1 o.mirror, f1, f2⟩
      intro e he
      obtain ⟨p, hp, hf⟩ := mem_of_forall₂' o.read.inv.secs (mem_portMap.2 he)
      obtain ⟨n1, n2, n3, n4⟩ := (portNumber_iff (hx.stack dc hdc e he.mem) (hx.portAcls dc hdc e he.mem)).1 hf.num
      refine ⟨p.number, n1, n2, n3, n4, ?_, f3 e he⟩
      intro k hkk
      have hr : Refers dc k := ⟨e, he, hkk⟩
      obtain ⟨vid, hm, x, hx', hxv⟩ := refers_vlan o.read.inv hr
      have hrange := (o.read.inv.vlans.origin _ hx').range
      rw [hxv] at hrange
      exact ⟨vid, hrange.1, hrange.2, hm⟩
  · intro hm
    obtain ⟨ds, hds⟩ := mapM_some (f := parseDp c) (l := c.dps) (fun d hd => parseDp_some hk hx hm hd)
    obtain ⟨dps0, h0⟩ := mapM_some (f := resetRefs c ds) (l := ds) (fun t _ => resetRefs_some hk hds t)
    have hread : List.Forall₂ (fun dc d => ∃ vs, Read c dc d vs) c.dps dps0 := by
      refine (forall₂_comp (mapM_forall₂ hds) (mapM_forall₂ h0)).imp ?_
      rintro dc d ⟨t, ht, h1, h2⟩
      obtain ⟨d', vs', ps'⟩ := t
      obtain ⟨rfl, -⟩ := parseDp_spec hk h1
      exact resetRefs_spec hk hds ht h2
    obtain ⟨dps, h1⟩ := mapM_some (f := finalizeDp c dps0) (l := dps0) (by
      intro d hd
      obtain ⟨dc, hdc, vs, hr⟩ := mem_of_forall₂ hread hd
      obtain ⟨hna, hua⟩ := read_noAcls hx hdc hr
      have hf := hm.dps dc hdc
      unfold finalizeDp
      have s1 : d.ports.all (stackOk dps0) = true := by
        rw [List.all_eq_true]
        intro p hp
        unfold stackOk
        rw [(hna p hp).2]
      have s2 : d.ports.all (fun p => p.mirrorOf.all (fun k => (resolvePort d.ports k).isSome)) = true := by
        rw [List.all_eq_true]
        intro p hp
        rw [List.all_eq_true]
        exact (mirrors_iff hr).2 hf.mirrors p hp
      have s3 : finalOk c d = true := (finalOk_iff hk hx hdc hr).2 ⟨hf.use, hf.global, fun e he k hkn j hj vid => by
        obtain ⟨n, hn⟩ := hf.interfaces e he
        exact hn.once k hkn j hj vid⟩
      rw [s1, s2, s3, hua]
      exact ⟨_, rfl⟩)
    have hconf : dps.map (·.conf) = c.dps := by
      have e0 : dps0.map (·.conf) = c.dps := by
        have := hread
        clear h1 h0 hds
        generalize c.dps = l at this
        clear hread
        induction this with
        | nil => rfl
        | cons a _ ih => obtain ⟨vs, hr⟩ := a; simp only [List.map_cons, ih, hr.conf]
      rw [← e0]
      have := mapM_forall₂ h1
      generalize hq : finalizeDp c dps0 = f at this
      have gen : ∀ {l r : List Dp}, List.Forall₂ (fun d0 d => f d0 = some d) l r → r.map (·.conf) = l.map (·.conf) := by
        intro l r hf
        induction hf with
        | nil => rfl
        | cons a _ ih =>
          rw [← hq] at a
          obtain ⟨-, -, -, _, -, hc, -⟩ := finalizeDp_spec a
          simp only [List.map_cons, ih, hc]
      exact gen this
    refine ⟨dps, ?_⟩
    unfold parse
    rw [hds]
    simp only
    rw [h0]
    simp only
    rw [h1]
    simp only
    have t1 : topologyOk dps = true := by
      apply topologyOk_plain
      intro d hd p hp
      obtain ⟨d0, hd0, hf⟩ := mem_of_forall₂ (mapM_forall₂ h1) hd
      obtain ⟨-, -, -, outs, -, -, hports, -⟩ := finalizeDp_spec hf
      rw [hports] at hp
      obtain ⟨p0, hp0, rfl⟩ := List.mem_map.1 hp
      obtain ⟨dc, hdc, vs, hr⟩ := mem_of_forall₂ hread hd0
      exact ((read_noAcls hx hdc hr).1 p0 hp0).2
    have t2 : restOk c dps = true := by
      unfold restOk
      rw [hx.routers]
      have : dps.map (fun d => d.conf.dpId) = c.dps.map (·.dpId) := by
        rw [← hconf, List.map_map]; rfl
      rw [this]
      simpa using hm.dpIds
    rw [t1, t2]
    rfl

end Faucet.Valid
