import Verif.Valid.Props

/-!
# Accepted configurations are as the switching model needs them (C68)
-/

namespace Faucet.Valid
open Faucet

variable {c : Conf}

theorem special_iff {pc : PortConf} : pc.nonVlan = true ↔ Special pc := by
  unfold PortConf.nonVlan Special
  simp only [Bool.or_eq_true, Option.isSome_iff_ne_none, Bool.not_eq_true', List.isEmpty_eq_false_iff]
  constructor
  · rintro (((h | h) | h) | h)
    · exact .inr (.inl h)
    · exact .inl h
    · exact .inr (.inr (.inr h))
    · exact .inr (.inr (.inl h))
  · rintro (h | h | h | h)
    · exact .inl (.inl (.inr h))
    · exact .inl (.inl (.inl h))
    · exact .inr h
    · exact .inl (.inr h)

theorem truthy_iff {k : Key} : k.truthy = true ↔ ¬Falsy k := by
  unfold Key.truthy Falsy
  simp only [Bool.and_eq_true, bne_iff_ne, not_or]

/-- Ports that mirror, stack, are for output only or for a coprocessor have no VLANs, unless their native VLAN is given as 0 or as an
empty string. -/
theorem special_no_vlans_partial (hk : c.Keyed) {dps : List Dp} (h : parse c = some dps) {d : Dp} (hd : d ∈ dps) {p : Port} (hp : p ∈ d.ports)
    {e : Key × PortConf} (he : Effective d.conf.interfaces e) (hn : secNum e = .num p.number) (hs : Special e.2)
    (hf : ∀ k, e.2.native = some k → ¬Falsy k) : p.native = none ∧ p.tagged = [] := by
  obtain ⟨dps0, hpp⟩ := parse_spec hk h
  obtain ⟨dc, d0, vs, outs, o⟩ := hpp.one hd
  rw [o.conf] at he
  rw [o.ports] at hp
  obtain ⟨p0, hp0, rfl⟩ := List.mem_map.1 hp
  obtain ⟨e', he', hfs⟩ := mem_of_forall₂ o.read.inv.secs hp0
  have hee : e' = e := by
    refine List.inj_on_of_nodup_map (portMap_nums dc.interfaces) he' (mem_portMap.2 he) ?_
    rw [hfs.num_eq]; exact hn.symm
  subst hee
  obtain ⟨-, -, -, hbad, -⟩ := portNumber_spec hfs.num
  unfold PortConf.bad at hbad
  simp only [Bool.or_eq_false_iff, Bool.and_eq_false_iff, special_iff.2 hs, Bool.true_eq_false, or_false] at hbad
  have hv := hbad.1.1.1
  unfold PortConf.vlanPort at hv
  simp only [Bool.or_eq_false_iff, Bool.not_eq_false', List.isEmpty_iff] at hv
  constructor
  · show p0.native = none
    rcases hfs.native with ⟨-, h2⟩ | ⟨k, vid, h1, -, -⟩
    · exact h2
    · exfalso
      have := hv.2
      rw [h1] at this
      have hkt := truthy_iff.2 (hf k h1)
      simp [hkt] at this
  · show p0.tagged = []
    have := hfs.tagged
    rw [hv.1] at this
    exact List.forall₂_nil_left_iff.1 this

/-- Interface numbers are those of physical ports, or `OFPP_LOCAL` or `OFPP_IN_PORT`. -/
theorem interface_numbers (hk : c.Keyed) {dps : List Dp} (h : parse c = some dps) {d : Dp} (hd : d ∈ dps) {p : Port} (hp : p ∈ d.ports) :
    1 ≤ p.number ∧ (p.number ≤ 0xF0000000 ∨ p.number = 0xfffffffe ∨ p.number = 0xfffffff8) := by
  obtain ⟨dps0, hpp⟩ := parse_spec hk h
  obtain ⟨dc, d0, vs, outs, o⟩ := hpp.one hd
  rw [o.ports] at hp
  obtain ⟨p0, hp0, rfl⟩ := List.mem_map.1 hp
  obtain ⟨e', he', hfs⟩ := mem_of_forall₂ o.read.inv.secs hp0
  obtain ⟨-, h1, h2, -⟩ := portNumber_spec hfs.num
  refine ⟨h1, ?_⟩
  show p0.number ≤ _ ∨ p0.number = _ ∨ p0.number = _
  unfold ignorePort at h2
  split at h2
  · omega
  · have := of_decide_eq_false h2
    omega

/-- A port has no VLAN twice: its native VLAN is not one of its tagged ones. -/
theorem native_not_tagged (hk : c.Keyed) {dps : List Dp} (h : parse c = some dps) {d : Dp} (hd : d ∈ dps) {p : Port} (hp : p ∈ d.ports)
    {vid : Nat} (hv : p.native = some vid) : vid ∉ p.tagged := by
  obtain ⟨dps0, hpp⟩ := parse_spec hk h
  obtain ⟨dc, d0, vs, outs, o⟩ := hpp.one hd
  rw [o.ports] at hp
  obtain ⟨p0, hp0, rfl⟩ := List.mem_map.1 hp
  have hok := o.ok
  unfold finalOk at hok
  rw [Bool.and_eq_true] at hok
  have := List.all_eq_true.1 hok.2 p0 hp0
  have hv : p0.native = some vid := hv
  rw [hv] at this
  show vid ∉ p0.tagged
  simpa using this

/-- An accepted configuration of a switch is as the switching model (C62, C63) needs it: port numbers and VIDs are unique and in
range, VLANs of ports exist, no port has a VLAN twice, and mirrors are in no VLAN. Excepted are mirrors with a native VLAN given as
0 or as an empty string (`Ex.mirror_in_vlan_defect`) and interfaces numbered as `OFPP_IN_PORT` (`Ex.in_port_interface_defect`). -/
theorem accepted_wf_partial (hk : c.Keyed) {dps : List Dp} (h : parse c = some dps) {d : Dp} (hd : d ∈ dps)
    (hm : ∀ e, Effective d.conf.interfaces e → e.2.mirror ≠ [] → ∀ k, e.2.native = some k → ¬Falsy k)
    (hi : ∀ e, Effective d.conf.interfaces e → secNum e ≠ .num 0xfffffff8) : d.toL2.WF := by
  have hports : ∀ q ∈ d.toL2.ports, ∃ p ∈ d.ports, q = p.toL2 := by
    intro q hq
    obtain ⟨p, hp, rfl⟩ := List.mem_map.1 (mem_isort.1 hq)
    exact ⟨p, hp, rfl⟩
  obtain ⟨pc1, pc2, pc3⟩ := ports_as_configured hk h hd
  obtain ⟨vn, vx⟩ := vlan_exists_iff hk h hd
  have hreal : ∀ p ∈ d.ports, L2.RealPort p.number := by
    intro p hp
    obtain ⟨-, h2⟩ := interface_numbers hk h hd hp
    obtain ⟨e, he, hs, -⟩ := pc1 p hp
    unfold L2.RealPort
    rcases h2 with h2 | h2 | h2
    · exact .inl h2
    · exact .inr h2
    · exact absurd (by rw [hs.number, h2]; rfl) (hi e he)
  have hnov : ∀ p ∈ d.ports, p.mirrorOf ≠ [] → p.native = none ∧ p.tagged = [] := by
    intro p hp hmo
    obtain ⟨e, he, hs, -⟩ := pc1 p hp
    rw [hs.mirrorOf] at hmo
    exact special_no_vlans_partial hk h hd hp he hs.number (.inl hmo) (hm e he hmo)
  refine ⟨?_, ?_, ?_, ?_, ?_, ?_, ?_⟩
  · have hperm : (d.toL2.ports.map (·.number)).Perm ((d.ports.map Port.toL2).map (·.number)) := (isort_perm _ _).map _
    rw [hperm.nodup_iff, List.map_map]
    exact pc3
  · show ((d.vlans.map Vlan.toL2).map (·.vid)).Nodup
    rw [List.map_map]; exact vn
  · intro q hq
    obtain ⟨p, hp, rfl⟩ := hports q hq
    exact hreal p hp
  · intro v hv
    obtain ⟨v0, hv0, rfl⟩ := List.mem_map.1 hv
    have := (vlans_as_configured hk h hd hv0).2.1
    show v0.vid < 4096
    omega
  · intro q hq vid hv
    obtain ⟨p, hp, rfl⟩ := hports q hq
    obtain ⟨e, he, hs, hvl⟩ := pc1 p hp
    have : ∃ k, Refers d.conf k ∧ Means c k vid := by
      rcases hv with hv | hv
      · obtain ⟨k, h1, h2⟩ := (hvl.native vid).1 hv
        exact ⟨k, ⟨e, he, .inl h1⟩, h2⟩
      · obtain ⟨k, h1, h2⟩ := (hvl.tagged vid).1 hv
        exact ⟨k, ⟨e, he, .inr h1⟩, h2⟩
    obtain ⟨k, h1, h2⟩ := this
    have hdc : d.conf ∈ c.dps := by
      rw [← switches_as_configured hk h]
      exact List.mem_map_of_mem hd
    obtain ⟨v, hv, hvv⟩ := (vx vid).2 (.inr ⟨d.conf, hdc, k, h1, h2⟩)
    exact ⟨v.toL2, List.mem_map_of_mem hv, hvv⟩
  · intro q hq vid hv
    obtain ⟨p, hp, rfl⟩ := hports q hq
    exact native_not_tagged hk h hd hp hv
  · intro q hq vid hin m hmm
    obtain ⟨p, hp, rfl⟩ := hports q hq
    have hmo : p.mirrorOf = [] := by
      by_contra hne
      obtain ⟨h1, h2⟩ := hnov p hp hne
      rcases hin with hin | hin
      · have : p.native = some vid := hin
        rw [h1] at this; cases this
      · have : vid ∈ p.tagged := hin
        rw [h2] at this; cases this
    obtain ⟨q, hq, rfl, k, hkm, -⟩ := (mirrors_as_configured hk h hd hp hmo m).1 hmm
    refine ⟨hreal q hq, ?_⟩
    intro r hr hrn
    obtain ⟨r0, hr0, rfl⟩ := hports r hr
    have : r0 = q := List.inj_on_of_nodup_map pc3 hr0 hq hrn
    subst this
    exact hnov r0 hr0 (List.ne_nil_of_mem hkm)

/-- The interface section is in the VLAN. -/
def SecIn (c : Conf) (e : Key × PortConf) (vid : Nat) : Prop := ∃ k, (e.2.native = some k ∨ k ∈ e.2.tagged) ∧ Means c k vid

/-- VLAN isolation (C62) in terms of the sections of an accepted configuration: after any history, a copy of a packet goes to FAUCET,
to an interface in a VLAN of the interface that the packet came from, or to one that mirrors. The VLAN is that of the packet's tag,
or the native one if it has none. -/
theorem accepted_isolation_partial (hk : c.Keyed) {dps : List Dp} (h : parse c = some dps) {d : Dp} (hd : d ∈ dps)
    (hm : ∀ e, Effective d.conf.interfaces e → e.2.mirror ≠ [] → ∀ k, e.2.native = some k → ¬Falsy k)
    (hi : ∀ e, Effective d.conf.interfaces e → secNum e ≠ .num 0xfffffff8)
    {s : L2.Sys} (hr : L2.Reach d.toL2 (fun k => L2.Wire k ∧ L2.Plain d.toL2 k) s) {e : Key × PortConf} (he : Effective d.conf.interfaces e)
    {n : Nat} (hn : secNum e = .num n) {k : OF.Pkt} (hw : L2.Wire k) (hin : k.hdr OF.fInPort = some n) {es : List OF.Emit}
    (hproc : OF.Proc s.sw 0 k es) {x : OF.Emit} (hx : x ∈ es) (hc : x.port ≠ OF.portController) :
    ∃ vid, ((k.tags = [] ∧ ∃ j, e.2.native = some j ∧ Means c j vid) ∨ (∃ t ts, k.tags = t :: ts ∧ t.1 = vid ∧ ∃ j ∈ e.2.tagged, Means c j vid)) ∧
      ∃ o, Effective d.conf.interfaces o ∧ secNum o = .num x.port ∧ (SecIn c o vid ∨ o.2.mirror ≠ []) := by
  have hwf := accepted_wf_partial hk h hd hm hi
  obtain ⟨pc1, pc2, pc3⟩ := ports_as_configured hk h hd
  obtain ⟨p, hp, hs, hv⟩ := pc2 e he
  have hpn : p.number = n := by
    have := hs.number.symm.trans hn
    injection this with this
    have : (p.number : Int) = (n : Int) := this
    omega
  have ports2 : ∀ q ∈ d.toL2.ports, ∃ p ∈ d.ports, q = p.toL2 := by
    intro q hq
    obtain ⟨p, hp, rfl⟩ := List.mem_map.1 (mem_isort.1 hq)
    exact ⟨p, hp, rfl⟩
  have inSec : ∀ {q : Port}, q ∈ d.ports → ∀ {vid : Nat}, q.toL2.In vid → ∃ o, Effective d.conf.interfaces o ∧ SettingsOf o q ∧ SecIn c o vid := by
    intro q hq vid hin
    obtain ⟨o, ho, hos, hov⟩ := pc1 q hq
    refine ⟨o, ho, hos, ?_⟩
    rcases hin with hin | hin
    · obtain ⟨j, h1, h2⟩ := (hov.native vid).1 hin
      exact ⟨j, .inl h1, h2⟩
    · obtain ⟨j, h1, h2⟩ := (hov.tagged vid).1 hin
      exact ⟨j, .inr h1, h2⟩
  have car : ∀ {vid inner}, L2.Carried p.toL2 k.tags vid inner →
      ((k.tags = [] ∧ ∃ j, e.2.native = some j ∧ Means c j vid) ∨ (∃ t ts, k.tags = t :: ts ∧ t.1 = vid ∧ ∃ j ∈ e.2.tagged, Means c j vid)) := by
    intro vid inner hcar
    generalize k.tags = tags at hcar
    cases hcar with
    | untagged h1 => exact .inl ⟨rfl, (hv.native vid).1 h1⟩
    | tagged h1 => exact .inr ⟨_, _, rfl, rfl, (hv.tagged vid).1 h1⟩
  obtain ⟨-, hal⟩ := L2.vlan_isolation_partial hwf hr (p := p.toL2) (mem_isort.2 (List.mem_map_of_mem hp)) hw
    (by rw [hin, ← hpn]; rfl) hproc x hx
  cases hal with
  | control h1 => exact absurd h1 hc
  | controller h1 => exact absurd h1 hc
  | @mirror vid inner q hcar hq hqin hqm =>
    obtain ⟨q0, hq0, rfl⟩ := ports2 q hq
    refine ⟨vid, car hcar, ?_⟩
    have hqm : x.port ∈ q0.mirror := hqm
    have hmo : q0.mirrorOf = [] := by
      by_contra hne
      obtain ⟨o, ho, hos, j, hj, -⟩ := inSec hq0 hqin
      have hne' := hne
      rw [hos.mirrorOf] at hne'
      obtain ⟨h1, h2⟩ := special_no_vlans_partial hk h hd hq0 ho hos.number (.inl hne') (hm o ho hne')
      rcases hqin with hin | hin
      · have : q0.native = some vid := hin
        rw [h1] at this; cases this
      · have : vid ∈ q0.tagged := hin
        rw [h2] at this; cases this
    obtain ⟨r, hr, hrn, j, hj, -⟩ := (mirrors_as_configured hk h hd hq0 hmo _).1 hqm
    obtain ⟨o, ho, hos, -⟩ := pc1 r hr
    refine ⟨o, ho, by rw [hos.number, hrn], .inr ?_⟩
    rw [← hos.mirrorOf]
    exact List.ne_nil_of_mem hj
  | @member vid inner q hcar hq hqn htags =>
    obtain ⟨q0, hq0, rfl⟩ := ports2 q hq
    refine ⟨vid, car hcar, ?_⟩
    have hqin : q0.toL2.In vid := by
      rcases htags with ⟨h1, -⟩ | ⟨h1, -⟩
      · exact .inl h1
      · exact .inr h1
    obtain ⟨o, ho, hos, hsec⟩ := inSec hq0 hqin
    exact ⟨o, ho, by rw [hos.number, hqn]; rfl, .inl hsec⟩

end Faucet.Valid
