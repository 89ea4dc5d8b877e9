import Verif.Valid.All
import Verif.L2.Isolation

/-!
# An accepted configuration is consistent and means what it says (C68)
-/

namespace Faucet.Valid
open Faucet

variable {c : Conf}

/-! ## References to ports -/

theorem resolve_iff {ports : List Port} {k : Key} {n : Nat} :
    (resolvePort ports k).map (·.number) = some n ↔ Denotes ports k n := by
  unfold Denotes
  cases k with
  | num m =>
    unfold resolvePort
    constructor
    · intro h
      obtain ⟨p, hp, rfl⟩ := Option.map_eq_some_iff.1 h
      have h1 := List.find?_some hp
      exact .inl ⟨by simpa using (of_decide_eq_true h1).symm, p, List.mem_of_find?_eq_some hp, rfl⟩
    · rintro (⟨h, p, hp, rfl⟩ | ⟨s, _, _, _, h, _⟩)
      · have hm : m = (p.number : Int) := by injection h
        cases hf : ports.find? (fun q => decide ((q.number : Int) = m)) with
        | none => exact absurd (List.find?_eq_none.1 hf p hp) (by simp [hm])
        | some q =>
          have := List.find?_some hf
          have : (q.number : Int) = m := of_decide_eq_true this
          show (ports.find? (fun q => decide ((q.number : Int) = m))).map (·.number) = some p.number
          rw [hf]
          show some q.number = some p.number
          congr 1; omega
      · cases h
  | name s =>
    unfold resolvePort
    rw [Option.map_eq_some_iff]
    constructor
    · rintro ⟨p, hp, rfl⟩
      obtain ⟨h1, pre, post, h2, h3⟩ := List.find?_eq_some_iff_append.1 hp
      exact .inr ⟨s, pre, p, post, rfl, h2, by simpa using h1, rfl, fun q hq => by simpa using h3 q hq⟩
    · rintro (⟨h, _⟩ | ⟨s', pre, p, post, h, h2, h3, h4, h5⟩)
      · cases h
      · injection h with h; subst h
        exact ⟨p, List.find?_eq_some_iff_append.2 ⟨by simpa using h3, pre, post, h2, fun q hq => by simpa using h5 q hq⟩, h4⟩

theorem find?_map_same {α : Type} (l : List α) (f : α → α) (g : α → Bool) (hg : ∀ a, g (f a) = g a) :
    (l.map f).find? g = (l.find? g).map f := by
  induction l with
  | nil => rfl
  | cons a l ih => simp only [List.map_cons, List.find?_cons, hg, ih]; cases g a <;> rfl

theorem resolvePort_resolved (ports qs : List Port) (outs : List Nat) (k : Key) :
    resolvePort (ports.map (Port.resolved qs outs)) k = (resolvePort ports k).map (Port.resolved qs outs) := by
  cases k <;> exact find?_map_same _ _ _ (fun _ => rfl)

theorem denotes_resolved {ports qs : List Port} {outs : List Nat} {k : Key} {n : Nat} :
    Denotes (ports.map (Port.resolved qs outs)) k n ↔ Denotes ports k n := by
  rw [← resolve_iff, ← resolve_iff, resolvePort_resolved, Option.map_map]
  rfl

/-! ## Ports -/

theorem FromSec.vlansOf (hk : c.Keyed) {e : Key × PortConf} {p : Port} (h : FromSec c e p) : VlansOf c e p := by
  refine ⟨fun vid => ?_, fun vid => ?_⟩
  · rcases h.native with ⟨h1, h2⟩ | ⟨k, v, h1, h2, h3⟩
    · rw [h1, h2]; simp
    · rw [h1, h2]
      constructor
      · intro h; cases h; exact ⟨k, rfl, h3⟩
      · rintro ⟨k', h, hm⟩
        cases h
        rw [means_det hk h3 hm]
  · constructor
    · intro hv
      obtain ⟨k, hkm, hm⟩ := mem_of_forall₂ h.tagged hv
      exact ⟨k, hkm, hm⟩
    · rintro ⟨k, hkm, hm⟩
      obtain ⟨v, hv, hm'⟩ := mem_of_forall₂' h.tagged hkm
      rw [means_det hk hm hm']
      exact hv

theorem name_spec (o : Option Str) (k : Key) :
    o = some (o.getD k.str) ∨ (o = none ∧ k = .name (o.getD k.str)) ∨ (o = none ∧ ∃ n, k = .num n ∧ o.getD k.str = .dec n) := by
  cases o with
  | some s => exact .inl rfl
  | none =>
    cases k with
    | num n => exact .inr (.inr ⟨rfl, n, rfl, rfl⟩)
    | name s => exact .inr (.inl ⟨rfl, rfl⟩)

theorem FromSec.settingsOf {e : Key × PortConf} {p : Port} (h : FromSec c e p) : SettingsOf e p := by
  have hp := h.port
  have hn := h.num_eq
  generalize p.native = nat, p.tagged = tag, p.number = n at hp hn
  subst hp
  refine ⟨hn, name_spec _ _, rfl, rfl, rfl, rfl, rfl, rfl, rfl, rfl, rfl, rfl, rfl, rfl, rfl, rfl, ?_, rfl⟩
  show (e.2.receiveLldp || e.2.stack.isSome) = true ↔ _
  rw [Bool.or_eq_true, Option.isSome_iff_ne_none]

theorem SettingsOf.resolved {e : Key × PortConf} {p : Port} (h : SettingsOf e p) (ports : List Port) (outs : List Nat) :
    SettingsOf e (p.resolved ports outs) :=
  ⟨h.number, h.name, h.mirrorOf, h.stack, h.coprocessor, h.acls, h.enabled, h.hairpin, h.hairpinUnicast, h.permanentLearn,
    h.loopProtect, h.loopProtectExternal, h.restricted, h.unicastFlood, h.countUntagMiss, h.lacp, h.receiveLldp, h.maxHosts⟩

/-- The ports of each switch are its interface sections (of several with one number, the last), with the VLANs that the sections
refer to and the settings that they give. -/
theorem ports_as_configured (hk : c.Keyed) {dps : List Dp} (h : parse c = some dps) {d : Dp} (hd : d ∈ dps) :
    (∀ p ∈ d.ports, ∃ e, Effective d.conf.interfaces e ∧ SettingsOf e p ∧ VlansOf c e p) ∧
    (∀ e, Effective d.conf.interfaces e → ∃ p ∈ d.ports, SettingsOf e p ∧ VlansOf c e p) ∧ (d.ports.map (·.number)).Nodup := by
  obtain ⟨dps0, hp⟩ := parse_spec hk h
  obtain ⟨dc, d0, vs, outs, o⟩ := hp.one hd
  rw [o.conf, o.ports]
  have key : ∀ {e p}, FromSec c e p → SettingsOf e (p.resolved d0.ports outs.flatten) ∧ VlansOf c e (p.resolved d0.ports outs.flatten) :=
    fun hf => ⟨hf.settingsOf.resolved _ _, (hf.vlansOf hk).native, (hf.vlansOf hk).tagged⟩
  refine ⟨?_, ?_, ?_⟩
  · intro p hp
    obtain ⟨p0, hp0, rfl⟩ := List.mem_map.1 hp
    obtain ⟨e, he, hf⟩ := mem_of_forall₂ o.read.inv.secs hp0
    exact ⟨e, mem_portMap.1 he, key hf⟩
  · intro e he
    obtain ⟨p0, hp0, hf⟩ := mem_of_forall₂' o.read.inv.secs (mem_portMap.2 he)
    exact ⟨_, List.mem_map_of_mem hp0, key hf⟩
  · rw [List.map_map]
    exact o.read.inv.nodup

/-- The switches are those of the configuration, in its order. -/
theorem switches_as_configured (hk : c.Keyed) {dps : List Dp} (h : parse c = some dps) : dps.map (·.conf) = c.dps := by
  obtain ⟨dps0, hp⟩ := parse_spec hk h
  have h1 : dps0.map (·.conf) = c.dps := by
    have := hp.read
    clear hp
    generalize c.dps = l at this
    induction this with
    | nil => rfl
    | cons a _ ih => obtain ⟨vs, hr⟩ := a; simp only [List.map_cons, ih, hr.conf]
  rw [← h1]
  have := hp.final
  generalize hq : finalizeDp c dps0 = f at this
  clear h1
  have gen : ∀ {l r : List Dp}, List.Forall₂ (fun d0 d => f d0 = some d) l r → r.map (·.conf) = l.map (·.conf) := by
    intro l r hf
    induction hf with
    | nil => rfl
    | cons a _ ih =>
      rw [← hq] at a
      obtain ⟨-, -, -, _, -, hc, -⟩ := finalizeDp_spec a
      simp only [List.map_cons, ih, hc]
  exact gen this

/-! ## VLANs -/

theorem mkVlan_sec {k : Key} {vc : VlanConf} {v : Vlan} (h : mkVlan k vc = some v) (ports : List Port) : SecVlan k vc (v.withPorts ports) := by
  obtain ⟨h1, -, -, h2, h3, h4, h5, h6, h7, -⟩ := mkVlan_spec h
  refine ⟨h1, ?_, h3, h4, h5, h6, h7⟩
  show vc.name = some v.name ∨ (vc.name = none ∧ k = .name v.name) ∨ (vc.name = none ∧ ∃ n, k = .num n ∧ v.name = .dec n)
  rw [h2]
  exact name_spec _ _

/-- Each switch has the VLANs of the VLAN sections and those that an interface of any switch refers to, no others, and each VID
once. -/
theorem vlan_exists_iff (hk : c.Keyed) {dps : List Dp} (h : parse c = some dps) {d : Dp} (hd : d ∈ dps) :
    (d.vlans.map (·.vid)).Nodup ∧ ∀ vid, (∃ v ∈ d.vlans, v.vid = vid) ↔
      (∃ e ∈ c.vlans, SecVid e.1 e.2 vid) ∨ ∃ dc ∈ c.dps, ∃ k, Refers dc k ∧ Means c k vid := by
  obtain ⟨dps0, hp⟩ := parse_spec hk h
  obtain ⟨dc, d0, vs, outs, o⟩ := hp.one hd
  have hi := o.read.inv.vlans
  rw [o.vlans]
  refine ⟨?_, fun vid => ⟨?_, ?_⟩⟩
  · rw [List.map_map]
    have : vs.values.map ((fun v : Vlan => v.vid) ∘ fun v => v.withPorts d0.ports) = vs.map (fun e => e.2.vid) := by
      unfold Dict.values; rw [List.map_map]; rfl
    rw [this]; exact hi.vids
  · rintro ⟨v, hv, rfl⟩
    obtain ⟨v0, hv0, rfl⟩ := List.mem_map.1 hv
    obtain ⟨⟨k, v1⟩, he, rfl⟩ := List.mem_map.1 hv0
    rcases hi.origin _ he with ⟨vc, h1, h2⟩ | ⟨h1, ⟨dc, hdc, hr⟩, h2⟩
    · exact .inl ⟨_, h1, (mkVlan_spec h2).1⟩
    · exact .inr ⟨dc, hdc, k, hr, (hi.origin _ he).means⟩
  · rintro (⟨⟨k, vc⟩, he, hs⟩ | ⟨dc, hdc, k, hr, hm⟩)
    · obtain ⟨v, hv⟩ := mem_keys_iff.1 (hi.secs _ he)
      refine ⟨_, List.mem_map_of_mem (List.mem_map.2 ⟨_, hv, rfl⟩), ?_⟩
      exact means_det hk (hi.origin _ hv).means (.inl ⟨vc, he, hs⟩)
    · obtain ⟨v, hv, hm'⟩ := o.read.all k ⟨dc, hdc, hr⟩
      exact ⟨_, List.mem_map_of_mem hv, means_det hk hm' hm⟩

/-- Each VLAN is what its section says. VLANs without a section have the default settings. VIDs are from 1 to 4095. -/
theorem vlans_as_configured (hk : c.Keyed) {dps : List Dp} (h : parse c = some dps) {d : Dp} (hd : d ∈ dps) {v : Vlan} (hv : v ∈ d.vlans) :
    1 ≤ v.vid ∧ v.vid ≤ 4095 ∧ (∀ e ∈ c.vlans, SecVid e.1 e.2 v.vid → SecVlan e.1 e.2 v) ∧
    ((∀ e ∈ c.vlans, ¬SecVid e.1 e.2 v.vid) → SecVlan (.num v.vid) {} v) := by
  obtain ⟨dps0, hp⟩ := parse_spec hk h
  obtain ⟨dc, d0, vs, outs, o⟩ := hp.one hd
  have hi := o.read.inv.vlans
  rw [o.vlans] at hv
  obtain ⟨v0, hv0, rfl⟩ := List.mem_map.1 hv
  obtain ⟨⟨k, v1⟩, he, rfl⟩ := List.mem_map.1 hv0
  have ho := hi.origin _ he
  refine ⟨ho.range.1, ho.range.2, ?_, ?_⟩
  · rintro ⟨k', vc⟩ hs hsv
    obtain ⟨v', hv'⟩ := mem_keys_iff.1 (hi.secs _ hs)
    have hv1 : v1.vid = v'.vid := means_det hk (.inl ⟨vc, hs, hsv⟩) (hi.origin _ hv').means
    have heq := List.inj_on_of_nodup_map hi.vids he hv' hv1
    obtain ⟨rfl, rfl⟩ := Prod.mk.inj heq
    have hs : (k, vc) ∈ c.vlans := hs
    rcases ho with ⟨vc', h1, h2⟩ | ⟨h1, -, -⟩
    · have := List.inj_on_of_nodup_map hk.vlans h1 hs rfl
      have hvc := (Prod.mk.inj this).2
      have h2' : mkVlan k vc = some v1 := by rw [← hvc]; exact h2
      exact mkVlan_sec h2' _
    · exact absurd rfl (h1 _ hs)
  · intro hno
    rcases ho with ⟨vc', h1, h2⟩ | ⟨h1, -, h2⟩
    · exact absurd (mkVlan_spec h2).1 (hno _ h1)
    · have h2' : mkVlan k {} = some v1 := h2
      have hkk := mkVlan_implicit h2'
      have := mkVlan_sec h2' d0.ports
      rw [hkk] at this
      exact this

theorem mem_sortNums {l : List Nat} {n : Nat} : n ∈ sortNums l ↔ n ∈ l := mem_isort

theorem sortNums_sorted {l : List Nat} (h : l.Nodup) : (sortNums l).Pairwise (· < ·) := by
  have h1 := isort_pairwise (le := fun a b : Nat => decide (a ≤ b)) (by intro a b; simp; omega) (by intro a b c; simp; omega) l
  have h2 : (sortNums l).Nodup := (isort_perm _ _).nodup_iff.2 h
  unfold sortNums at *
  refine (h1.and h2).imp ?_
  intro a b hab
  have := hab.1
  have hne := hab.2
  simp at this
  omega

theorem filter_map_nodup {ports : List Port} (h : (ports.map (·.number)).Nodup) (f : Port → Bool) :
    ((ports.filter f).map (·.number)).Nodup :=
  h.sublist (List.filter_sublist.map _)

/-- The members of a VLAN are the ports that have it, each once and in order. -/
theorem vlan_members (hk : c.Keyed) {dps : List Dp} (h : parse c = some dps) {d : Dp} (hd : d ∈ dps) {v : Vlan} (hv : v ∈ d.vlans) :
    (∀ n, n ∈ v.tagged ↔ ∃ p ∈ d.ports, p.number = n ∧ v.vid ∈ p.tagged) ∧
    (∀ n, n ∈ v.untagged ↔ ∃ p ∈ d.ports, p.number = n ∧ p.native = some v.vid) ∧
    v.tagged.Pairwise (· < ·) ∧ v.untagged.Pairwise (· < ·) := by
  obtain ⟨dps0, hp⟩ := parse_spec hk h
  obtain ⟨dc, d0, vs, outs, o⟩ := hp.one hd
  rw [o.vlans] at hv
  obtain ⟨v0, hv0, rfl⟩ := List.mem_map.1 hv
  rw [o.ports]
  refine ⟨fun n => ?_, fun n => ?_, sortNums_sorted (filter_map_nodup o.read.inv.nodup _), sortNums_sorted (filter_map_nodup o.read.inv.nodup _)⟩
  · show n ∈ sortNums _ ↔ _
    rw [mem_sortNums, List.mem_map]
    constructor
    · rintro ⟨p, hp, rfl⟩
      obtain ⟨h1, h2⟩ := List.mem_filter.1 hp
      have h2 : v0.vid ∈ p.tagged := by simpa using h2
      exact ⟨_, List.mem_map_of_mem h1, rfl, h2⟩
    · rintro ⟨p, hp, rfl, h2⟩
      obtain ⟨p0, hp0, rfl⟩ := List.mem_map.1 hp
      have h2 : v0.vid ∈ p0.tagged := h2
      exact ⟨p0, List.mem_filter.2 ⟨hp0, by simpa using h2⟩, rfl⟩
  · show n ∈ sortNums _ ↔ _
    rw [mem_sortNums, List.mem_map]
    constructor
    · rintro ⟨p, hp, rfl⟩
      obtain ⟨h1, h2⟩ := List.mem_filter.1 hp
      have h2 : p.native = some v0.vid := by simpa using h2
      exact ⟨_, List.mem_map_of_mem h1, rfl, h2⟩
    · rintro ⟨p, hp, rfl, h2⟩
      obtain ⟨p0, hp0, rfl⟩ := List.mem_map.1 hp
      have h2 : p0.native = some v0.vid := h2
      exact ⟨p0, List.mem_filter.2 ⟨hp0, by simpa using h2⟩, rfl⟩

/-! ## Mirrors -/

theorem mem_mirrorTo {ports : List Port} {p : Port} {m : Nat} :
    m ∈ mirrorTo ports p ↔ ∃ q ∈ ports, q.number = m ∧ ∃ k ∈ q.mirrorOf, Denotes ports k p.number := by
  unfold mirrorTo
  rw [List.mem_flatMap]
  constructor
  · rintro ⟨q, hq, hm⟩
    obtain ⟨k, hkm, rfl⟩ := List.mem_map.1 hm
    obtain ⟨h1, h2⟩ := List.mem_filter.1 hkm
    exact ⟨q, hq, rfl, k, h1, resolve_iff.1 (of_decide_eq_true h2)⟩
  · rintro ⟨q, hq, rfl, k, h1, h2⟩
    exact ⟨q, hq, List.mem_map.2 ⟨k, List.mem_filter.2 ⟨h1, decide_eq_true (resolve_iff.2 h2)⟩, rfl⟩⟩

/-- A port that is not a mirror itself is mirrored to the ports that have a reference to it in `mirror`, and to no others. -/
theorem mirrors_as_configured (hk : c.Keyed) {dps : List Dp} (h : parse c = some dps) {d : Dp} (hd : d ∈ dps) {p : Port} (hp : p ∈ d.ports)
    (hm : p.mirrorOf = []) (m : Nat) :
    m ∈ p.mirror ↔ ∃ q ∈ d.ports, q.number = m ∧ ∃ k ∈ q.mirrorOf, Denotes d.ports k p.number := by
  obtain ⟨dps0, hpp⟩ := parse_spec hk h
  obtain ⟨dc, d0, vs, outs, o⟩ := hpp.one hd
  rw [o.ports] at hp ⊢
  obtain ⟨p0, hp0, rfl⟩ := List.mem_map.1 hp
  have hm0 : p0.mirrorOf = [] := hm
  have : (p0.resolved d0.ports outs.flatten).mirror = mirrorTo d0.ports p0 := by
    show (if (mirrorTo d0.ports p0).isEmpty then mirrorFrom d0.ports p0 else mirrorTo d0.ports p0) = _
    split
    · rename_i he
      rw [List.isEmpty_iff.1 he]
      unfold mirrorFrom
      rw [hm0]; rfl
    · rfl
  rw [this, mem_mirrorTo]
  constructor
  · rintro ⟨q, hq, rfl, k, h1, h2⟩
    exact ⟨_, List.mem_map_of_mem hq, rfl, k, h1, denotes_resolved.2 h2⟩
  · rintro ⟨q, hq, rfl, k, h1, h2⟩
    obtain ⟨q0, hq0, rfl⟩ := List.mem_map.1 hq
    exact ⟨q0, hq0, rfl, k, h1, denotes_resolved.1 h2⟩

/-- Every reference in `mirror` is to a port of the switch. -/
theorem mirror_references_resolve (hk : c.Keyed) {dps : List Dp} (h : parse c = some dps) {d : Dp} (hd : d ∈ dps) {q : Port}
    (hq : q ∈ d.ports) {k : Key} (hkm : k ∈ q.mirrorOf) : ∃ n, Denotes d.ports k n := by
  obtain ⟨dps0, hpp⟩ := parse_spec hk h
  obtain ⟨dc, d0, vs, outs, o⟩ := hpp.one hd
  rw [o.ports] at hq ⊢
  obtain ⟨q0, hq0, rfl⟩ := List.mem_map.1 hq
  obtain ⟨p, hp⟩ := Option.isSome_iff_exists.1 (o.mirror q0 hq0 k hkm)
  exact ⟨p.number, denotes_resolved.2 (resolve_iff.1 (by rw [hp]; rfl))⟩

theorem mem_usedAcls {d : Dp} {a : Nat} : a ∈ d.usedAcls ↔ d.uses a := by
  unfold Dp.usedAcls Dp.uses
  simp only [List.mem_append, List.mem_flatMap, or_assoc]

/-- A port is for output only if it is configured so, if it is a mirror but not for a coprocessor, or if an ACL that the switch
uses mirrors to it. -/
theorem output_only_iff (hk : c.Keyed) (ha : (c.acls.map (·.1)).Nodup) {dps : List Dp} (h : parse c = some dps) {d : Dp} (hd : d ∈ dps)
    {p : Port} (hp : p ∈ d.ports) {e : Key × PortConf} (he : Effective d.conf.interfaces e) (hn : secNum e = .num p.number) :
    p.outputOnly = true ↔ e.2.outputOnly = true ∨ (e.2.mirror ≠ [] ∧ e.2.coprocessor = false) ∨
      ∃ x ∈ c.acls, d.uses x.1 ∧ ∃ k ∈ x.2, Denotes d.ports k p.number := by
  obtain ⟨dps0, hpp⟩ := parse_spec hk h
  obtain ⟨dc, d0, vs, outs, o⟩ := hpp.one hd
  rw [o.conf] at he
  rw [o.ports] at hp ⊢
  obtain ⟨p0, hp0, rfl⟩ := List.mem_map.1 hp
  obtain ⟨e', he', hf⟩ := mem_of_forall₂ o.read.inv.secs hp0
  have hee : e' = e := by
    have h1 := portMap_nums dc.interfaces
    refine List.inj_on_of_nodup_map h1 he' (mem_portMap.2 he) ?_
    rw [hf.num_eq]; exact hn.symm
  subst hee
  have hout : p0.outputOnly = e'.2.outputOnly := by rw [hf.port]; rfl
  have huse : ∀ a, d.uses a ↔ a ∈ d0.usedAcls := by
    intro a
    rw [mem_usedAcls]
    unfold Dp.uses
    rw [o.conf, o.ports, o.vlans, o.read.conf, o.read.vlans]
    refine or_congr Iff.rfl (or_congr ⟨?_, ?_⟩ Iff.rfl)
    · rintro ⟨p, hp, hpa⟩
      obtain ⟨p1, hp1, rfl⟩ := List.mem_map.1 hp
      exact ⟨p1, hp1, hpa⟩
    · rintro ⟨p, hp, hpa⟩
      exact ⟨_, List.mem_map_of_mem hp, hpa⟩
  show (p0.outputOnly || (!p0.mirrorOf.isEmpty && !p0.coprocessor) || outs.flatten.contains p0.number) = true ↔ _
  rw [hout, hf.settingsOf.mirrorOf, hf.settingsOf.coprocessor]
  simp only [Bool.or_eq_true, Bool.and_eq_true, Bool.not_eq_true', List.isEmpty_eq_false_iff, List.contains_eq_mem, decide_eq_true_eq, or_assoc]
  refine or_congr Iff.rfl (or_congr Iff.rfl ?_)
  have hfo := mapM_forall₂ o.acls
  rw [List.mem_flatten]
  have sect : ∀ {a : Nat} {l : List Nat}, aclMirrors c d0.ports a = some l →
      ∃ x ∈ c.acls, x.1 = a ∧ ∀ n, n ∈ l ↔ ∃ k ∈ x.2, Denotes d0.ports k n := by
    intro a l hl
    unfold aclMirrors at hl
    split at hl
    · cases hl
    · rename_i x hx
      refine ⟨x, List.mem_of_find?_eq_some hx, by simpa using List.find?_some hx, fun n => ?_⟩
      have hfl := mapM_forall₂ hl
      constructor
      · intro hnl
        obtain ⟨k, hkx, hr⟩ := mem_of_forall₂ hfl hnl
        exact ⟨k, hkx, resolve_iff.1 hr⟩
      · rintro ⟨k, hkx, hden⟩
        obtain ⟨m, hm, hr⟩ := mem_of_forall₂' hfl hkx
        rw [resolve_iff.2 hden] at hr
        rw [Option.some.inj hr]; exact hm
  constructor
  · rintro ⟨l, hl, hnl⟩
    obtain ⟨a, hau, hal⟩ := mem_of_forall₂ hfo hl
    obtain ⟨x, hx, rfl, hxl⟩ := sect hal
    obtain ⟨k, hkx, hden⟩ := (hxl _).1 hnl
    exact ⟨x, hx, (huse _).2 hau, k, hkx, denotes_resolved.2 hden⟩
  · rintro ⟨x, hx, hu, k, hkx, hden⟩
    obtain ⟨l, hl, hal⟩ := mem_of_forall₂' hfo ((huse _).1 hu)
    obtain ⟨y, hy, hyx, hyl⟩ := sect hal
    have : y = x := List.inj_on_of_nodup_map ha hy hx hyx
    subst this
    exact ⟨l, hl, (hyl _).2 ⟨k, hkx, denotes_resolved.1 hden⟩⟩

end Faucet.Valid
