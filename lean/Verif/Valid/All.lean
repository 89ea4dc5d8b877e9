import Verif.Valid.Vlans

/-!
# All switches of an accepted configuration
-/

namespace Faucet.Valid
open Faucet

variable {c : Conf}

/-- Some switch refers to the VLAN. -/
def RefersAny (c : Conf) (k : Key) : Prop := ∃ d ∈ c.dps, Refers d k

/-! ## VLANs of other switches -/

theorem mem_keys_iff {κ α : Type} {d : Dict κ α} {k : κ} : k ∈ d.keys ↔ ∃ v, (k, v) ∈ d := by
  unfold Dict.keys
  rw [List.mem_map]
  constructor
  · rintro ⟨⟨k', v⟩, h, rfl⟩; exact ⟨v, h⟩
  · rintro ⟨v, h⟩; exact ⟨(k, v), h, rfl⟩

theorem has_iff {κ α : Type} [DecidableEq κ] {d : Dict κ α} {k : κ} : d.has k = true ↔ k ∈ d.keys := by
  unfold Dict.has
  cases h : d.get? k with
  | none => simpa using Dict.get?_eq_none_iff.1 h
  | some v => simpa using mem_keys_iff.2 ⟨v, Dict.mem_of_get? h⟩

/-- A section makes the same VLAN on every switch. -/
theorem section_vlan (hk : c.Keyed) {R R' : Key → Prop} {vs vs' : Dict Key Vlan} (h : VInv c R vs) (h' : VInv c R' vs') {k : Key}
    {vc : VlanConf} {v : Vlan} (hs : (k, vc) ∈ c.vlans) (hv : (k, v) ∈ vs) : (k, v) ∈ vs' := by
  obtain ⟨v', hv'⟩ := mem_keys_iff.1 (h'.secs _ hs)
  have key : ∀ {R : Key → Prop} {v : Vlan}, From c R k v → mkVlan k vc = some v := by
    rintro R v (⟨vc', h1, h2⟩ | ⟨h1, -, -⟩)
    · have := List.inj_on_of_nodup_map hk.vlans h1 hs rfl
      rw [(Prod.mk.inj this).2] at h2
      exact h2
    · exact absurd rfl (h1 _ hs)
  have e1 : mkVlan k vc = some v := key (h.origin _ hv)
  have e2 : mkVlan k vc = some v' := key (h'.origin _ hv')
  rw [e1] at e2
  rw [Option.some.inj e2]
  exact hv'

/-- A VID that a switch had to add is not that of another VLAN of any switch. -/
theorem implicit_new (hk : c.Keyed) {R R' : Key → Prop} {vs vs' : Dict Key Vlan} (h : VInv c R vs) (h' : VInv c R' vs') {k : Key}
    (hk' : k ∈ vs'.keys) (hno : ∀ e ∈ c.vlans, e.1 ≠ k) {e : Key × Vlan} (he : e ∈ vs) (hv : k = .num e.2.vid) : e.1 = k := by
  obtain ⟨k1, v1⟩ := e
  obtain ⟨v', hv'⟩ := mem_keys_iff.1 hk'
  have hv'' : k = .num v'.vid := by
    rcases h'.origin _ hv' with ⟨vc, h1, -⟩ | ⟨-, -, h2⟩
    · exact absurd rfl (hno _ h1)
    · exact mkVlan_implicit h2
  rcases h.origin _ he with ⟨vc, h1, h2⟩ | ⟨h1, -, h2⟩
  · have := section_vlan hk h h' h1 he
    have heq : (k1, v1) = (k, v') := by
      refine List.inj_on_of_nodup_map h'.vids this hv' ?_
      show v1.vid = v'.vid
      rw [hv] at hv''
      injection hv'' with hh
      have hh' : (v1.vid : Int) = (v'.vid : Int) := hh
      omega
    exact (Prod.mk.inj heq).1
  · rw [hv]
    exact mkVlan_implicit h2

theorem addImplicit_spec (hk : c.Keyed) {R R' : Key → Prop} {vs vs1 vs' : Dict Key Vlan} (h : VInv c R vs) (h' : VInv c R' vs')
    {k : Key} (hk' : k ∈ vs'.keys) (hno : ∀ e ∈ c.vlans, e.1 ≠ k) (hR : R k) (ha : addImplicit vs k = some vs1) :
    VInv c R vs1 ∧ Grows vs vs1 ∧ k ∈ vs1.keys := by
  unfold addImplicit at ha
  split at ha
  · rename_i hh
    obtain rfl := Option.some.inj ha
    exact ⟨h, fun _ => id, has_iff.1 hh⟩
  · rename_i hh
    have hkn : k ∉ vs.keys := fun hm => hh (has_iff.2 hm)
    cases hv : mkVlan k {} with
    | none => rw [hv] at ha; cases ha
    | some v =>
      rw [hv] at ha
      obtain rfl := Option.some.inj ha
      have hnew : ∀ e ∈ vs, k ≠ .num e.2.vid := by
        intro e he heq
        exact hkn (mem_keys_iff.2 ⟨e.2, by rw [← implicit_new hk h h' hk' hno he heq]; exact he⟩)
      obtain ⟨a, b⟩ := add_inv h hkn hR hnew hv
      refine ⟨a, b, ?_⟩
      show k ∈ (vs.set k v).keys
      rw [set_new hkn]; simp [Dict.keys]

theorem addAll_spec (hk : c.Keyed) {R R' : Key → Prop} {ks : List Key}
    (hks : ∀ k ∈ ks, R k ∧ (∀ e ∈ c.vlans, e.1 ≠ k) ∧ ∃ vs', VInv c R' vs' ∧ k ∈ vs'.keys) {vs vs1 : Dict Key Vlan} (h : VInv c R vs)
    (ha : ks.foldlM addImplicit vs = some vs1) : VInv c R vs1 ∧ Grows vs vs1 ∧ ∀ k ∈ ks, k ∈ vs1.keys := by
  induction ks generalizing vs with
  | nil => simp at ha; subst ha; exact ⟨h, fun _ => id, fun _ hx => absurd hx List.not_mem_nil⟩
  | cons k ks ih =>
    rw [List.foldlM_cons] at ha
    cases h1 : addImplicit vs k with
    | none => rw [h1] at ha; cases ha
    | some vs2 =>
      rw [h1] at ha
      obtain ⟨hR, hno, vs', hv', hkv⟩ := hks k List.mem_cons_self
      obtain ⟨a1, a2, a3⟩ := addImplicit_spec hk h hv' hkv hno hR h1
      obtain ⟨b1, b2, b3⟩ := ih (fun k hk => hks k (List.mem_cons_of_mem _ hk)) a1 ha
      refine ⟨b1, fun e he => b2 e (a2 e he), ?_⟩
      intro j hj
      rcases List.mem_cons.1 hj with rfl | hj
      · obtain ⟨v, hv⟩ := mem_keys_iff.1 a3
        exact mem_keys_iff.2 ⟨v, b2 _ hv⟩
      · exact b3 j hj

/-! ## One switch after the others are read -/

/-- A switch before `finalize_config`. -/
structure Read (c : Conf) (dc : DpConf) (d : Dp) (vs : Dict Key Vlan) : Prop where
  conf : d.conf = dc
  inv : DpInv c (RefersAny c) dc vs d.ports
  vlans : d.vlans = vs.values.map (fun v => v.withPorts d.ports)
  all : ∀ k, RefersAny c k → ∃ v, v ∈ vs.values ∧ Means c k v.vid

theorem forall₂_comp {α β γ : Type} {R : α → β → Prop} {S : β → γ → Prop} {l : List α} {m : List β} {r : List γ}
    (h1 : List.Forall₂ R l m) (h2 : List.Forall₂ S m r) : List.Forall₂ (fun a t => ∃ b ∈ m, R a b ∧ S b t) l r := by
  induction h1 generalizing r with
  | nil => cases h2; exact .nil
  | cons a _ ih =>
    cases h2 with
    | cons b h2 =>
      refine .cons ⟨_, List.mem_cons_self, a, b⟩ ((ih h2).imp ?_)
      rintro a t ⟨b, hb, h⟩
      exact ⟨b, List.mem_cons_of_mem _ hb, h⟩

theorem refers_vlan {R : Key → Prop} {d : DpConf} {vs : Dict Key Vlan} {ps : List Port} (h : DpInv c R d vs ps) {k : Key}
    (hr : Refers d k) : ∃ vid, Means c k vid ∧ ∃ e ∈ vs, e.2.vid = vid := by
  obtain ⟨e, he, hk⟩ := hr
  obtain ⟨p, hp, hf⟩ := mem_of_forall₂' h.secs (mem_portMap.2 he)
  rcases hk with hk | hk
  · rcases hf.native with ⟨h1, -⟩ | ⟨j, vid, h1, h2, h3⟩
    · rw [h1] at hk; cases hk
    · rw [h1] at hk; cases hk
      exact ⟨vid, h3, h.has p hp vid (.inl h2)⟩
  · obtain ⟨vid, hv, hm⟩ := mem_of_forall₂' hf.tagged hk
    exact ⟨vid, hm, h.has p hp vid (.inr hv)⟩

theorem resetRefs_spec (hk : c.Keyed) {ds : List (DpConf × Dict Key Vlan × List Port)} (hds : c.dps.mapM (parseDp c) = some ds)
    {t : DpConf × Dict Key Vlan × List Port} (ht : t ∈ ds) {d : Dp} (hr : resetRefs c ds t = some d) :
    ∃ vs, Read c t.1 d vs := by
  have hf := mapM_forall₂ hds
  have inv : ∀ t ∈ ds, t.1 ∈ c.dps ∧ DpInv c (Refers t.1) t.1 t.2.1 t.2.2 := by
    intro t ht
    obtain ⟨dc, hdc, hp⟩ := mem_of_forall₂ hf ht
    obtain ⟨d', vs, ps⟩ := t
    obtain ⟨rfl, hi⟩ := parseDp_spec hk hp
    exact ⟨hdc, hi⟩
  obtain ⟨hdc, hi⟩ := inv t ht
  unfold resetRefs at hr
  cases ha : (implicitKeys c ds).foldlM addImplicit t.2.1 with
  | none => rw [ha] at hr; cases hr
  | some vs1 =>
    rw [ha] at hr
    obtain rfl := Option.some.inj hr
    have hks : ∀ k ∈ implicitKeys c ds, RefersAny c k ∧ (∀ e ∈ c.vlans, e.1 ≠ k) ∧ ∃ vs', VInv c (RefersAny c) vs' ∧ k ∈ vs'.keys := by
      intro k hkm
      obtain ⟨t', ht', hkt⟩ := List.mem_flatMap.1 hkm
      obtain ⟨hkk, hno⟩ := List.mem_filter.1 hkt
      obtain ⟨hdc', hi'⟩ := inv t' ht'
      have hno' : ∀ e ∈ c.vlans, e.1 ≠ k := by
        intro e he heq
        have : c.vlans.any (fun e => e.1 == k) = true := List.any_eq_true.2 ⟨e, he, by simpa using heq⟩
        rw [this] at hno; cases hno
      obtain ⟨v, hv⟩ := mem_keys_iff.1 hkk
      refine ⟨?_, hno', t'.2.1, hi'.vlans.mono (fun k h => ⟨t'.1, hdc', h⟩), hkk⟩
      rcases hi'.vlans.origin _ hv with ⟨vc, h1, -⟩ | ⟨-, h2, -⟩
      · exact absurd rfl (hno' _ h1)
      · exact ⟨t'.1, hdc', h2⟩
    obtain ⟨b1, b2, b3⟩ := addAll_spec hk hks (hi.vlans.mono (fun k h => (⟨t.1, hdc, h⟩ : RefersAny c k))) ha
    refine ⟨vs1, rfl, ⟨hi.bad, b1, hi.secs, fun p hp => (hi.has p hp).mono b2⟩, rfl, ?_⟩
    rintro k ⟨d', hd', hrf⟩
    obtain ⟨t', ht', hpt⟩ := mem_of_forall₂' hf hd'
    obtain ⟨d'', vs', ps'⟩ := t'
    obtain ⟨rfl, hi'⟩ := parseDp_spec hk hpt
    obtain ⟨vid, hm, ⟨k1, v1⟩, he, rfl⟩ := refers_vlan hi' hrf
    refine ⟨v1, ?_, hm⟩
    suffices h : (k1, v1) ∈ vs1 from List.mem_map.2 ⟨_, h, rfl⟩
    by_cases hs : ∃ e ∈ c.vlans, e.1 = k1
    · obtain ⟨⟨k2, vc⟩, hs, rfl⟩ := hs
      exact section_vlan hk hi'.vlans b1 hs he
    · have hno : ∀ e ∈ c.vlans, e.1 ≠ k1 := fun e he h => hs ⟨e, he, h⟩
      have hmem : k1 ∈ implicitKeys c ds := by
        refine List.mem_flatMap.2 ⟨_, ht', List.mem_filter.2 ⟨mem_keys_iff.2 ⟨v1, he⟩, ?_⟩⟩
        rw [Bool.not_eq_true', List.any_eq_false]
        intro e he
        simpa using hno e he
      obtain ⟨v2, hv2⟩ := mem_keys_iff.1 (b3 k1 hmem)
      have e1 : mkVlan k1 {} = some v1 := by
        rcases hi'.vlans.origin _ he with ⟨vc, h1, -⟩ | ⟨-, -, h2⟩
        · exact absurd rfl (hno _ h1)
        · exact h2
      have e2 : mkVlan k1 {} = some v2 := by
        rcases b1.origin _ hv2 with ⟨vc, h1, -⟩ | ⟨-, -, h2⟩
        · exact absurd rfl (hno _ h1)
        · exact h2
      rw [e1] at e2
      rw [Option.some.inj e2]
      exact hv2

/-! ## The whole -/

/-- What acceptance comes to. -/
structure Parsed (c : Conf) (dps0 dps : List Dp) : Prop where
  read : List.Forall₂ (fun dc d => ∃ vs, Read c dc d vs) c.dps dps0
  final : List.Forall₂ (fun d0 d => finalizeDp c dps0 d0 = some d) dps0 dps
  topology : topologyOk dps = true
  rest : restOk c dps = true

theorem parse_spec (hk : c.Keyed) {dps : List Dp} (h : parse c = some dps) : ∃ dps0, Parsed c dps0 dps := by
  unfold parse at h
  split at h
  · cases h
  · rename_i ds hds
    split at h
    · cases h
    · rename_i dps0 h0
      split at h
      · cases h
      · rename_i dps1 h1
        split at h
        · cases h
        · rename_i hok
          obtain rfl := Option.some.inj h
          simp only [Bool.or_eq_true, Bool.not_eq_true', not_or, Bool.not_eq_false] at hok
          refine ⟨dps0, ?_, mapM_forall₂ h1, hok.1, hok.2⟩
          have := forall₂_comp (mapM_forall₂ hds) (mapM_forall₂ h0)
          refine this.imp ?_
          rintro dc d ⟨t, ht, h1, h2⟩
          obtain ⟨d', vs', ps'⟩ := t
          obtain ⟨rfl, -⟩ := parseDp_spec hk h1
          exact resetRefs_spec hk hds ht h2

/-- What `finalize_config` checks and changes. -/
theorem finalizeDp_spec {dps : List Dp} {d0 d : Dp} (h : finalizeDp c dps d0 = some d) :
    (∀ p ∈ d0.ports, stackOk dps p = true) ∧ (∀ p ∈ d0.ports, ∀ k ∈ p.mirrorOf, (resolvePort d0.ports k).isSome = true) ∧
    finalOk c d0 = true ∧ ∃ outs, d0.usedAcls.mapM (aclMirrors c d0.ports) = some outs ∧ d.conf = d0.conf ∧
      d.ports = d0.ports.map (Port.resolved d0.ports outs.flatten) ∧ d.vlans = d0.vlans ∧ d.routers = dpRouters c d0.vlans := by
  unfold finalizeDp at h
  split at h
  · cases h
  · rename_i h1
    split at h
    · cases h
    · rename_i h2
      split at h
      · cases h
      · rename_i h3
        cases hm : d0.usedAcls.mapM (aclMirrors c d0.ports) with
        | none => rw [hm] at h; cases h
        | some outs =>
          rw [hm] at h
          obtain rfl := Option.some.inj h
          simp only [Bool.not_eq_true', Bool.not_eq_false, List.all_eq_true] at h1 h2 h3
          exact ⟨h1, h2, h3, outs, rfl, rfl, rfl, rfl, rfl⟩

/-- One switch of an accepted configuration, before and after `finalize_config`. -/
structure One (c : Conf) (dps0 : List Dp) (dc : DpConf) (d0 d : Dp) (vs : Dict Key Vlan) (outs : List (List Nat)) : Prop where
  mem : dc ∈ c.dps
  mem0 : d0 ∈ dps0
  read : Read c dc d0 vs
  stack : ∀ p ∈ d0.ports, stackOk dps0 p = true
  mirror : ∀ p ∈ d0.ports, ∀ k ∈ p.mirrorOf, (resolvePort d0.ports k).isSome = true
  ok : finalOk c d0 = true
  acls : d0.usedAcls.mapM (aclMirrors c d0.ports) = some outs
  conf : d.conf = dc
  ports : d.ports = d0.ports.map (Port.resolved d0.ports outs.flatten)
  vlans : d.vlans = vs.values.map (fun v => v.withPorts d0.ports)
  routers : d.routers = dpRouters c d.vlans

theorem Parsed.one {dps0 dps : List Dp} (h : Parsed c dps0 dps) {d : Dp} (hd : d ∈ dps) : ∃ dc d0 vs outs, One c dps0 dc d0 d vs outs := by
  obtain ⟨d0, hd0, hf⟩ := mem_of_forall₂ h.final hd
  obtain ⟨dc, hdc, vs, hr⟩ := mem_of_forall₂ h.read hd0
  obtain ⟨h1, h2, h3, outs, h4, h5, h6, h7, h8⟩ := finalizeDp_spec hf
  exact ⟨dc, d0, vs, outs, hdc, hd0, hr, h1, h2, h3, h4, h5.trans hr.conf, h6, h7.trans hr.vlans, by rw [h8, h7]⟩

end Faucet.Valid
