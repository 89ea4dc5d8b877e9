import Verif.Valid.Spec
import Mathlib.Data.List.Nodup
import Mathlib.Data.List.Forall2

/-!
# VLANs and ports of one switch
-/

namespace Faucet.Valid
open Faucet

variable {c : Conf}

/-! ## Lists -/

theorem mapM_forall₂ {α β : Type} {f : α → Option β} {l : List α} {r : List β} (h : l.mapM f = some r) :
    List.Forall₂ (fun a b => f a = some b) l r := by
  induction l generalizing r with
  | nil => simp at h; subst h; exact .nil
  | cons a l ih =>
    rw [List.mapM_cons] at h
    cases h1 : f a with
    | none => rw [h1] at h; cases h
    | some b =>
      rw [h1] at h
      cases h2 : l.mapM f with
      | none => rw [h2] at h; cases h
      | some bs =>
        rw [h2] at h
        obtain rfl : b :: bs = r := Option.some.inj h
        exact .cons h1 (ih h2)

theorem mem_of_forall₂ {α β : Type} {R : α → β → Prop} {l : List α} {r : List β} (h : List.Forall₂ R l r) {b : β} (hb : b ∈ r) :
    ∃ a ∈ l, R a b := by
  induction h with
  | nil => cases hb
  | cons h1 _ ih =>
    rcases List.mem_cons.1 hb with rfl | hb
    · exact ⟨_, List.mem_cons_self, h1⟩
    · obtain ⟨a, ha, h⟩ := ih hb
      exact ⟨a, List.mem_cons_of_mem _ ha, h⟩

theorem mem_of_forall₂' {α β : Type} {R : α → β → Prop} {l : List α} {r : List β} (h : List.Forall₂ R l r) {a : α} (ha : a ∈ l) :
    ∃ b ∈ r, R a b := by
  induction h with
  | nil => cases ha
  | cons h1 _ ih =>
    rcases List.mem_cons.1 ha with rfl | ha
    · exact ⟨_, List.mem_cons_self, h1⟩
    · obtain ⟨b, hb, h⟩ := ih ha
      exact ⟨b, List.mem_cons_of_mem _ hb, h⟩

theorem set_new {κ α : Type} [DecidableEq κ] {d : Dict κ α} {k : κ} (h : k ∉ d.keys) (v : α) : d.set k v = d ++ [(k, v)] := by
  induction d with
  | nil => rfl
  | cons e d ih =>
    obtain ⟨k', v'⟩ := e
    simp only [Dict.keys, List.map_cons, List.mem_cons, not_or] at h
    rw [Dict.set, if_neg (fun e => h.1 e.symm), ih h.2]
    rfl

/-! ## One VLAN -/

theorem mkVlan_spec {k : Key} {vc : VlanConf} {v : Vlan} (h : mkVlan k vc = some v) :
    SecVid k vc v.vid ∧ 1 ≤ v.vid ∧ v.vid ≤ 4095 ∧ v.name = vc.name.getD k.str ∧ v.vips = vc.vips ∧ v.acls = vc.acls ∧
      v.unicastFlood = vc.unicastFlood ∧ v.maxHosts = vc.maxHosts ∧ v.mac = vc.mac ∧ v.tagged = [] ∧ v.untagged = [] ∧
      ∀ x ∈ vc.vips, x.isHost = false := by
  unfold mkVlan at h
  split at h
  · cases h
  · rename_i n hn
    by_cases hc : (!validVid n || vc.vips.any Vip.isHost) = true
    · rw [if_pos hc] at h; cases h
    · rw [if_neg hc] at h
      obtain rfl := Option.some.inj h
      simp only [validVid, Bool.or_eq_true, Bool.not_eq_eq_eq_not, Bool.not_true, Bool.and_eq_false_iff, decide_eq_false_iff_not,
        List.any_eq_true, not_or, not_and, not_exists, Decidable.not_not] at hc
      obtain ⟨⟨h1, h2⟩, h3⟩ := hc
      have hnat : ((n.toNat : Nat) : Int) = n := by omega
      refine ⟨?_, ?_, ?_, rfl, rfl, rfl, rfl, rfl, rfl, rfl, rfl, fun x hx => by simpa using h3 x hx⟩
      · unfold SecVid
        show vc.vid = some ((n.toNat : Nat) : Int) ∨ (vc.vid = none ∧ k = .num ((n.toNat : Nat) : Int))
        rw [hnat]
        unfold VlanConf.vidKey at hn
        cases hv : vc.vid with
        | none => rw [hv] at hn; exact .inr ⟨rfl, hn⟩
        | some m => rw [hv] at hn; left; simpa using hn
      · show 1 ≤ n.toNat; omega
      · show n.toNat ≤ 4095; omega

theorem mkVlan_implicit {k : Key} {v : Vlan} (h : mkVlan k {} = some v) : k = .num v.vid := by
  rcases (mkVlan_spec h).1 with h | h
  · cases h
  · exact h.2

/-! ## What stays true of the VLANs of a switch -/

/-- Where a VLAN comes from: its section, or a reference to a VID that has none. -/
def From (c : Conf) (R : Key → Prop) (k : Key) (v : Vlan) : Prop :=
  (∃ vc, (k, vc) ∈ c.vlans ∧ mkVlan k vc = some v) ∨ ((∀ e ∈ c.vlans, e.1 ≠ k) ∧ R k ∧ mkVlan k {} = some v)

structure VInv (c : Conf) (R : Key → Prop) (vs : Dict Key Vlan) : Prop where
  origin : ∀ e ∈ vs, From c R e.1 e.2
  secs : ∀ e ∈ c.vlans, e.1 ∈ vs.keys
  vids : (vs.map (fun e => e.2.vid)).Nodup
  keys : vs.keys.Nodup

theorem From.means {R : Key → Prop} {k : Key} {v : Vlan} (h : From c R k v) : Means c k v.vid := by
  rcases h with ⟨vc, h1, h2⟩ | ⟨h1, -, h2⟩
  · exact .inl ⟨vc, h1, (mkVlan_spec h2).1⟩
  · exact .inr ⟨h1, mkVlan_implicit h2⟩

theorem From.range {R : Key → Prop} {k : Key} {v : Vlan} (h : From c R k v) : 1 ≤ v.vid ∧ v.vid ≤ 4095 := by
  rcases h with ⟨vc, _, h2⟩ | ⟨_, _, h2⟩ <;> exact ⟨(mkVlan_spec h2).2.1, (mkVlan_spec h2).2.2.1⟩

theorem From.mono {R R' : Key → Prop} (hR : ∀ k, R k → R' k) {k : Key} {v : Vlan} (h : From c R k v) : From c R' k v := by
  rcases h with h | ⟨h1, h2, h3⟩
  · exact .inl h
  · exact .inr ⟨h1, hR _ h2, h3⟩

theorem VInv.mono {R R' : Key → Prop} (hR : ∀ k, R k → R' k) {vs : Dict Key Vlan} (h : VInv c R vs) : VInv c R' vs :=
  ⟨fun e he => (h.origin e he).mono hR, h.secs, h.vids, h.keys⟩

/-- Keys mean one VLAN only. -/
theorem means_det (hk : c.Keyed) {k : Key} {a b : Nat} (ha : Means c k a) (hb : Means c k b) : a = b := by
  rcases ha with ⟨vc, h1, h2⟩ | ⟨h1, h2⟩ <;> rcases hb with ⟨vc', h3, h4⟩ | ⟨h3, h4⟩
  · have : vc = vc' := by
      have := List.inj_on_of_nodup_map hk.vlans h1 h3 rfl
      exact (Prod.mk.inj this).2
    subst this
    rcases h2 with h2 | ⟨h2, h2'⟩ <;> rcases h4 with h4 | ⟨h4, h4'⟩
    · rw [h2] at h4; exact_mod_cast Option.some.inj h4
    · rw [h2] at h4; cases h4
    · rw [h2] at h4; cases h4
    · rw [h2'] at h4'; injection h4' with h; exact_mod_cast h
  · exact absurd rfl (h3 _ h1)
  · exact absurd rfl (h1 _ h3)
  · rw [h2] at h4; injection h4 with h; exact_mod_cast h

/-- The sections so far. -/
structure SInv (pre : List (Key × VlanConf)) (vs : Dict Key Vlan) : Prop where
  origin : ∀ e ∈ vs, ∃ vc, (e.1, vc) ∈ pre ∧ mkVlan e.1 vc = some e.2 ∧ ¬(e.1.str ≠ .dec (e.2.vid : Int) ∧ e.1.str ≠ e.2.name)
  secs : ∀ e ∈ pre, e.1 ∈ vs.keys
  vids : (vs.map (fun e => e.2.vid)).Nodup
  keys : vs.keys.Nodup

theorem addVlan_inv {pre : List (Key × VlanConf)} {vs vs' : Dict Key Vlan} {kc : Key × VlanConf} (hn : kc.1 ∉ pre.map (·.1))
    (h : SInv pre vs) (ha : addVlan vs kc = some vs') : SInv (pre ++ [kc]) vs' := by
  unfold addVlan at ha
  split at ha
  · cases ha
  · rename_i v hv
    split at ha
    · cases ha
    · rename_i hkey
      split at ha
      · cases ha
      · rename_i hfresh
        obtain rfl := Option.some.inj ha
        have hk : kc.1 ∉ vs.keys := by
          intro hm
          obtain ⟨e, he, hek⟩ := List.mem_map.1 hm
          obtain ⟨vc, h1, -, -⟩ := h.origin e he
          exact hn (List.mem_map.2 ⟨_, h1, hek⟩)
        rw [set_new hk]
        refine ⟨?_, ?_, ?_, ?_⟩
        · intro e he
          rcases List.mem_append.1 he with he | he
          · obtain ⟨vc, h1, h2⟩ := h.origin e he
            exact ⟨vc, List.mem_append_left _ h1, h2⟩
          · obtain rfl := List.mem_singleton.1 he
            exact ⟨kc.2, by simp, hv, hkey⟩
        · intro e he
          rcases List.mem_append.1 he with he | he
          · have := h.secs e he
            simp only [Dict.keys, List.map_append, List.mem_append] at this ⊢
            exact .inl this
          · obtain rfl := List.mem_singleton.1 he
            simp [Dict.keys]
        · rw [List.map_append, List.nodup_append]
          refine ⟨h.vids, by simp, ?_⟩
          intro a ha b hb
          obtain ⟨e, he, rfl⟩ := List.mem_map.1 ha
          simp only [List.map_cons, List.map_nil, List.mem_singleton] at hb
          subst hb
          intro heq
          apply hfresh
          rw [List.any_eq_true]
          exact ⟨e.2, List.mem_map.2 ⟨e, he, rfl⟩, by simpa using heq⟩
        · simp only [Dict.keys, List.map_append]
          rw [List.nodup_append]
          refine ⟨h.keys, by simp, ?_⟩
          intro a ha b hb
          simp only [List.map_cons, List.map_nil, List.mem_singleton] at hb
          subst hb
          rintro rfl
          exact hk ha

theorem parseVlans_inv {l : List (Key × VlanConf)} (hl : (l.map (·.1)).Nodup) {vs : Dict Key Vlan} (h : parseVlans l = some vs) :
    SInv l vs := by
  have gen : ∀ (l pre : List (Key × VlanConf)) (vs vs' : Dict Key Vlan), ((pre ++ l).map (·.1)).Nodup → SInv pre vs →
      l.foldlM addVlan vs = some vs' → SInv (pre ++ l) vs' := by
    intro l
    induction l with
    | nil => intro pre vs vs' _ hi h; simp at h; subst h; simpa using hi
    | cons kc l ih =>
      intro pre vs vs' hn hi h
      rw [List.foldlM_cons] at h
      cases ha : addVlan vs kc with
      | none => rw [ha] at h; cases h
      | some vs1 =>
        rw [ha] at h
        have hkc : kc.1 ∉ pre.map (·.1) := by
          intro hm
          rw [List.map_append, List.nodup_append] at hn
          exact hn.2.2 _ hm _ (by simp) rfl
        have := ih (pre ++ [kc]) vs1 vs' (by simpa using hn) (addVlan_inv hkc hi ha) h
        simpa using this
  exact gen l [] [] vs (by simpa using hl) ⟨nofun, nofun, by simp, by simp [Dict.keys]⟩ h

theorem VInv.of_sections (hk : c.Keyed) {vs : Dict Key Vlan} (h : parseVlans c.vlans = some vs) (R : Key → Prop) : VInv c R vs := by
  have := parseVlans_inv hk.vlans h
  exact ⟨fun e he => .inl (let ⟨vc, h1, h2, _⟩ := this.origin e he; ⟨vc, h1, h2⟩), this.secs, this.vids, this.keys⟩

/-! ## References -/

/-- The VLANs are still there. -/
def Grows (vs vs' : Dict Key Vlan) : Prop := ∀ e ∈ vs, e ∈ vs'

theorem add_inv {R : Key → Prop} {vs : Dict Key Vlan} (h : VInv c R vs) {k : Key} {v : Vlan} (hk : k ∉ vs.keys) (hR : R k)
    (hnew : ∀ e ∈ vs, k ≠ .num e.2.vid) (hv : mkVlan k {} = some v) : VInv c R (vs.set k v) ∧ Grows vs (vs.set k v) := by
  rw [set_new hk]
  refine ⟨⟨?_, ?_, ?_, ?_⟩, fun e he => List.mem_append_left _ he⟩
  · intro e he
    rcases List.mem_append.1 he with he | he
    · exact h.origin e he
    · obtain rfl := List.mem_singleton.1 he
      refine .inr ⟨?_, hR, hv⟩
      intro e' he' heq
      have heq : e'.1 = k := heq
      rw [← heq] at hk
      exact hk (h.secs e' he')
  · intro e he
    have := h.secs e he
    simp only [Dict.keys, List.map_append, List.mem_append] at this ⊢
    exact .inl this
  · rw [List.map_append, List.nodup_append]
    refine ⟨h.vids, by simp, ?_⟩
    intro a ha b hb
    obtain ⟨e, he, rfl⟩ := List.mem_map.1 ha
    simp only [List.map_cons, List.map_nil, List.mem_singleton] at hb
    subst hb
    intro heq
    apply hnew e he
    rw [heq]
    exact mkVlan_implicit hv
  · simp only [Dict.keys, List.map_append]
    rw [List.nodup_append]
    refine ⟨h.keys, by simp, ?_⟩
    intro a ha b hb
    simp only [List.map_cons, List.map_nil, List.mem_singleton] at hb
    subst hb
    rintro rfl
    exact hk ha

theorem getVlan_spec {R : Key → Prop} {vs vs' : Dict Key Vlan} (h : VInv c R vs) {k : Key} (hR : R k) {vid : Nat}
    (hg : getVlan vs k = some (vs', vid)) :
    VInv c R vs' ∧ Grows vs vs' ∧ Means c k vid ∧ ∃ e ∈ vs', e.2.vid = vid := by
  unfold getVlan at hg
  split at hg
  · rename_i v hv
    obtain ⟨rfl, rfl⟩ := Prod.mk.inj (Option.some.inj hg)
    have hm := Dict.mem_of_get? hv
    exact ⟨h, fun _ => id, (h.origin _ hm).means, _, hm, rfl⟩
  · rename_i hv
    have hk : k ∉ vs.keys := Dict.get?_eq_none_iff.1 hv
    have hsec : ∀ e ∈ c.vlans, e.1 ≠ k := by
      rintro e he rfl
      exact hk (h.secs e he)
    split at hg
    · rename_i v hf
      obtain ⟨rfl, rfl⟩ := Prod.mk.inj (Option.some.inj hg)
      have h1 := List.find?_some hf
      have h2 := List.mem_of_find?_eq_some hf
      obtain ⟨e, he, rfl⟩ := List.mem_map.1 h2
      exact ⟨h, fun _ => id, .inr ⟨hsec, by simpa using h1⟩, e, he, rfl⟩
    · rename_i hf
      have hnew : ∀ e ∈ vs, k ≠ .num e.2.vid := by
        intro e he heq
        have := List.find?_eq_none.1 hf e.2 (List.mem_map.2 ⟨e, he, rfl⟩)
        exact this (by simpa using heq)
      split at hg
      · cases hg
      · rename_i n
        cases hv : mkVlan (.num n) {} with
        | none => rw [hv] at hg; cases hg
        | some v =>
          rw [hv] at hg
          obtain ⟨rfl, rfl⟩ := Prod.mk.inj (Option.some.inj hg)
          obtain ⟨h1, h2⟩ := add_inv h hk hR hnew hv
          refine ⟨h1, h2, .inr ⟨hsec, mkVlan_implicit hv⟩, (.num n, v), ?_, rfl⟩
          rw [set_new hk]; simp

theorem getVlans_spec {R : Key → Prop} {ks : List Key} {vs vs' : Dict Key Vlan} (h : VInv c R vs) (hR : ∀ k ∈ ks, R k)
    {vids : List Nat} (hg : getVlans vs ks = some (vs', vids)) :
    VInv c R vs' ∧ Grows vs vs' ∧ List.Forall₂ (Means c) ks vids ∧ ∀ vid ∈ vids, ∃ e ∈ vs', e.2.vid = vid := by
  induction ks generalizing vs vids with
  | nil =>
    simp only [getVlans, Option.some.injEq, Prod.mk.injEq] at hg
    obtain ⟨rfl, rfl⟩ := hg
    exact ⟨h, fun _ => id, .nil, fun _ hx => absurd hx List.not_mem_nil⟩
  | cons k ks ih =>
    rw [getVlans] at hg
    split at hg
    · cases hg
    · rename_i vs1 v hv
      cases hr : getVlans vs1 ks with
      | none => rw [hr] at hg; cases hg
      | some r =>
        obtain ⟨vs2, vids2⟩ := r
        rw [hr] at hg
        obtain ⟨rfl, rfl⟩ := Prod.mk.inj (Option.some.inj hg)
        obtain ⟨a1, a2, a3, e, he, hev⟩ := getVlan_spec h (hR k List.mem_cons_self) hv
        obtain ⟨b1, b2, b3, b4⟩ := ih a1 (fun k hk => hR k (List.mem_cons_of_mem _ hk)) hr
        refine ⟨b1, fun e he => b2 e (a2 e he), .cons a3 b3, ?_⟩
        intro vid hvid
        rcases List.mem_cons.1 hvid with rfl | hvid
        · exact ⟨e, b2 e he, hev⟩
        · exact b4 vid hvid

theorem getNative_spec {R : Key → Prop} {k : Option Key} {vs vs' : Dict Key Vlan} (h : VInv c R vs) (hR : ∀ j, k = some j → R j)
    {o : Option Nat} (hg : getNative vs k = some (vs', o)) :
    VInv c R vs' ∧ Grows vs vs' ∧ ((k = none ∧ o = none) ∨ ∃ j vid, k = some j ∧ o = some vid ∧ Means c j vid) ∧
      ∀ vid, o = some vid → ∃ e ∈ vs', e.2.vid = vid := by
  cases k with
  | none =>
    simp only [getNative, Option.some.injEq, Prod.mk.injEq] at hg
    obtain ⟨rfl, rfl⟩ := hg
    exact ⟨h, fun _ => id, .inl ⟨rfl, rfl⟩, fun _ hx => by cases hx⟩
  | some j =>
    rw [getNative] at hg
    cases hr : getVlan vs j with
    | none => rw [hr] at hg; cases hg
    | some r =>
      obtain ⟨vs1, vid⟩ := r
      rw [hr] at hg
      obtain ⟨rfl, rfl⟩ := Prod.mk.inj (Option.some.inj hg)
      obtain ⟨a1, a2, a3, a4⟩ := getVlan_spec h (hR j rfl) hr
      exact ⟨a1, a2, .inr ⟨j, vid, rfl, rfl, a3⟩, fun v hv => by cases hv; exact a4⟩

/-! ## Ports -/

theorem secNum_eq (e : Key × PortConf) : secNum e = e.2.numKey e.1 := by
  unfold secNum PortConf.numKey
  cases e.2.number <;> rfl

/-- What `portNumber` checks. -/
theorem portNumber_spec {k : Key} {pc : PortConf} {n : Nat} (h : portNumber k pc = some n) :
    secNum (k, pc) = .num n ∧ 0 < n ∧ ignorePort n = false ∧ pc.bad = false ∧ (k.str = .dec n ∨ k.str = pc.nameStr k) := by
  unfold portNumber at h
  rw [secNum_eq]
  split at h
  · cases h
  · rename_i m hm
    split at h
    · cases h
    · rename_i h1
      split at h
      · cases h
      · rename_i h2
        split at h
        · cases h
        · rename_i h3
          obtain rfl := Option.some.inj h
          simp only [Bool.or_eq_true, decide_eq_true_eq, not_or, Int.not_le, Bool.not_eq_true] at h1
          have hnat : ((m.toNat : Nat) : Int) = m := by omega
          rw [hnat]
          refine ⟨hm, by omega, h1.2, by simpa using h2, ?_⟩
          by_cases hs : k.str = .dec m
          · exact .inl hs
          · right
            by_contra hx
            exact h3 ⟨hs, hx⟩

/-- A port is what its section says. -/
structure FromSec (c : Conf) (e : Key × PortConf) (p : Port) : Prop where
  num : portNumber e.1 e.2 = some p.number
  port : p = mkPort e.1 e.2 p.number p.native p.tagged
  native : (e.2.native = none ∧ p.native = none) ∨ ∃ k vid, e.2.native = some k ∧ p.native = some vid ∧ Means c k vid
  tagged : List.Forall₂ (Means c) e.2.tagged p.tagged

/-- The VLANs of a port exist. -/
def Has (vs : Dict Key Vlan) (p : Port) : Prop := ∀ vid, p.native = some vid ∨ vid ∈ p.tagged → ∃ e ∈ vs, e.2.vid = vid

theorem Has.mono {vs vs' : Dict Key Vlan} (hg : Grows vs vs') {p : Port} (h : Has vs p) : Has vs' p := by
  intro vid hv
  obtain ⟨e, he, h⟩ := h vid hv
  exact ⟨e, hg e he, h⟩

theorem parsePort_spec {R : Key → Prop} {vs vs' : Dict Key Vlan} (h : VInv c R vs) {k : Key} {pc : PortConf}
    (hR : ∀ j, pc.native = some j ∨ j ∈ pc.tagged → R j) {p : Port} (hp : parsePort vs k pc = some (vs', p)) :
    VInv c R vs' ∧ Grows vs vs' ∧ FromSec c (k, pc) p ∧ Has vs' p := by
  unfold parsePort at hp
  split at hp
  · cases hp
  · rename_i n hn
    split at hp
    · cases hp
    · rename_i vs1 native h1
      cases h2 : getVlans vs1 pc.tagged with
      | none => rw [h2] at hp; cases hp
      | some r =>
        obtain ⟨vs2, tagged⟩ := r
        rw [h2] at hp
        obtain ⟨rfl, rfl⟩ := Prod.mk.inj (Option.some.inj hp)
        obtain ⟨a1, a2, a3, a4⟩ := getNative_spec h (fun j hj => hR j (.inl hj)) h1
        obtain ⟨b1, b2, b3, b4⟩ := getVlans_spec a1 (fun j hj => hR j (.inr hj)) h2
        refine ⟨b1, fun e he => b2 e (a2 e he), ⟨hn, rfl, ?_, b3⟩, ?_⟩
        · rcases a3 with a3 | ⟨j, vid, e1, e2, e3⟩
          · exact .inl a3
          · exact .inr ⟨j, vid, e1, e2, e3⟩
        · intro vid hv
          rcases hv with hv | hv
          · obtain ⟨e, he, hev⟩ := a4 vid hv
            exact ⟨e, b2 e he, hev⟩
          · exact b4 vid hv

theorem parsePorts_spec {R : Key → Prop} {l : List (Key × PortConf)} {vs vs' : Dict Key Vlan} (h : VInv c R vs)
    (hR : ∀ e ∈ l, ∀ j, e.2.native = some j ∨ j ∈ e.2.tagged → R j) {ps : List Port} (hp : parsePorts vs l = some (vs', ps)) :
    VInv c R vs' ∧ Grows vs vs' ∧ List.Forall₂ (FromSec c) l ps ∧ ∀ p ∈ ps, Has vs' p := by
  induction l generalizing vs ps with
  | nil =>
    simp only [parsePorts, Option.some.injEq, Prod.mk.injEq] at hp
    obtain ⟨rfl, rfl⟩ := hp
    exact ⟨h, fun _ => id, .nil, fun _ hx => absurd hx List.not_mem_nil⟩
  | cons kc l ih =>
    rw [parsePorts] at hp
    split at hp
    · cases hp
    · rename_i vs1 p h1
      cases hr : parsePorts vs1 l with
      | none => rw [hr] at hp; cases hp
      | some r =>
        obtain ⟨vs2, ps2⟩ := r
        rw [hr] at hp
        obtain ⟨rfl, rfl⟩ := Prod.mk.inj (Option.some.inj hp)
        obtain ⟨a1, a2, a3, a4⟩ := parsePort_spec h (hR kc List.mem_cons_self) h1
        obtain ⟨b1, b2, b3, b4⟩ := ih a1 (fun e he => hR e (List.mem_cons_of_mem _ he)) hr
        refine ⟨b1, fun e he => b2 e (a2 e he), .cons a3 b3, ?_⟩
        intro q hq
        rcases List.mem_cons.1 hq with rfl | hq
        · exact a4.mono b2
        · exact b4 q hq

/-! ## The map of the interfaces -/

/-- The map: each number with its effective section. -/
theorem portMap_spec (l : List (Key × PortConf)) :
    (portMap l).keys.Nodup ∧ ∀ k e, (k, e) ∈ portMap l ↔ k = secNum e ∧ Effective l e := by
  unfold portMap
  have gen : ∀ (l pre : List (Key × PortConf)) (d : Dict Key (Key × PortConf)),
      (d.keys.Nodup ∧ ∀ k e, (k, e) ∈ d ↔ k = secNum e ∧ Effective pre e) →
      ((l.foldl (fun d kc => d.set (kc.2.numKey kc.1) kc) d).keys.Nodup ∧
        ∀ k e, (k, e) ∈ l.foldl (fun d kc => d.set (kc.2.numKey kc.1) kc) d ↔ k = secNum e ∧ Effective (pre ++ l) e) := by
    intro l
    induction l with
    | nil => intro pre d h; simpa using h
    | cons kc l ih =>
      intro pre d h
      rw [List.foldl_cons]
      have := ih (pre ++ [kc]) (d.set (kc.2.numKey kc.1) kc) ?_
      · simpa using this
      · obtain ⟨hn, hd⟩ := h
        have hn' := Dict.nodup_keys_set hn (kc.2.numKey kc.1) kc
        refine ⟨hn', ?_⟩
        intro k e
        rw [← Dict.get?_eq_some_iff hn', Dict.get?_set, ← secNum_eq kc]
        by_cases hk : secNum kc = k
        · rw [if_pos hk]
          constructor
          · intro h
            obtain rfl := Option.some.inj h
            exact ⟨hk.symm, pre, [], rfl, fun _ hx => absurd hx List.not_mem_nil⟩
          · rintro ⟨rfl, p1, p2, h1, h2⟩
            rcases List.eq_nil_or_concat p2 with rfl | ⟨p3, x, rfl⟩
            · have := List.append_inj_right' (h1.trans (by simp : p1 ++ [e] = p1 ++ [e])) rfl
              simp at this; rw [this]
            · exfalso
              have hx : kc = x := by
                have : pre ++ [kc] = (p1 ++ e :: p3) ++ [x] := by rw [h1]; simp
                have := List.append_inj_right' this rfl
                simpa using this
              subst hx
              exact h2 kc (by simp) hk
        · rw [if_neg hk, Dict.get?_eq_some_iff hn, hd]
          constructor
          · rintro ⟨rfl, p1, p2, h1, h2⟩
            refine ⟨rfl, p1, p2 ++ [kc], by rw [h1]; simp, ?_⟩
            intro x hx
            rcases List.mem_append.1 hx with hx | hx
            · exact h2 x hx
            · obtain rfl := List.mem_singleton.1 hx
              exact hk
          · rintro ⟨rfl, p1, p2, h1, h2⟩
            refine ⟨rfl, ?_⟩
            rcases List.eq_nil_or_concat p2 with rfl | ⟨p3, x, rfl⟩
            · exfalso
              have := List.append_inj_right' (h1.trans (by simp : p1 ++ [e] = p1 ++ [e])) rfl
              simp at this; rw [this] at hk; exact hk rfl
            · have h3 : pre ++ [kc] = (p1 ++ e :: p3) ++ [x] := by rw [h1]; simp
              have := List.append_inj_left' h3 rfl
              exact ⟨p1, p3, this, fun y hy => h2 y (by simp [hy])⟩
  have := gen l [] [] ⟨by simp [Dict.keys], by
    intro k e
    simp only [List.not_mem_nil, false_iff, not_and]
    rintro - ⟨p1, p2, h1, -⟩
    simp at h1⟩
  simpa using this

theorem mem_portMap {l : List (Key × PortConf)} {e : Key × PortConf} : e ∈ (portMap l).values ↔ Effective l e := by
  constructor
  · intro h
    obtain ⟨⟨k, e'⟩, he, rfl⟩ := List.mem_map.1 h
    exact (((portMap_spec l).2 k e').1 he).2
  · intro h
    exact List.mem_map.2 ⟨(secNum e, e), ((portMap_spec l).2 _ _).2 ⟨rfl, h⟩, rfl⟩

theorem portMap_nums (l : List (Key × PortConf)) : ((portMap l).values.map secNum).Nodup := by
  have h := portMap_spec l
  have : (portMap l).values.map secNum = (portMap l).keys := by
    unfold Dict.values Dict.keys
    rw [List.map_map]
    apply List.map_congr_left
    rintro ⟨k, e⟩ he
    exact ((h.2 k e).1 he).1.symm
  rw [this]; exact h.1

/-- What is true of a parsed switch. -/
structure DpInv (c : Conf) (R : Key → Prop) (d : DpConf) (vs : Dict Key Vlan) (ps : List Port) : Prop where
  bad : d.bad = false
  vlans : VInv c R vs
  secs : List.Forall₂ (FromSec c) (portMap d.interfaces).values ps
  has : ∀ p ∈ ps, Has vs p

theorem parseDp_spec (hk : c.Keyed) {d d' : DpConf} {vs : Dict Key Vlan} {ps : List Port} (h : parseDp c d = some (d', vs, ps)) :
    d' = d ∧ DpInv c (Refers d) d vs ps := by
  unfold parseDp at h
  split at h
  · cases h
  · rename_i hb
    split at h
    · cases h
    · rename_i vs0 h0
      cases hr : parsePorts vs0 (portMap d.interfaces).values with
      | none => rw [hr] at h; cases h
      | some r =>
        obtain ⟨vs1, ps1⟩ := r
        rw [hr] at h
        rw [Option.map_some] at h
        obtain ⟨rfl, h'⟩ := Prod.mk.inj (Option.some.inj h)
        obtain ⟨rfl, rfl⟩ := Prod.mk.inj h'
        obtain ⟨a1, -, a3, a4⟩ := parsePorts_spec (VInv.of_sections hk h0 (Refers d))
          (fun e he j hj => ⟨e, mem_portMap.1 he, hj⟩) hr
        exact ⟨rfl, by simpa using hb, a1, a3, a4⟩

theorem FromSec.num_eq {e : Key × PortConf} {p : Port} (h : FromSec c e p) : secNum e = .num p.number := (portNumber_spec h.num).1

theorem DpInv.nodup {R : Key → Prop} {d : DpConf} {vs : Dict Key Vlan} {ps : List Port} (h : DpInv c R d vs ps) :
    (ps.map (·.number)).Nodup := by
  have h1 := portMap_nums d.interfaces
  have h2 : (portMap d.interfaces).values.map secNum = ps.map (fun p => Key.num (p.number : Int)) := by
    have := h.secs
    generalize (portMap d.interfaces).values = l at this
    clear h1
    have gen : ∀ {l : List (Key × PortConf)} {qs : List Port}, List.Forall₂ (FromSec c) l qs →
        l.map secNum = qs.map (fun p => Key.num (p.number : Int)) := by
      intro l qs hf
      induction hf with
      | nil => rfl
      | cons a _ ih => simp only [List.map_cons, ih, a.num_eq]
    exact gen this
  rw [h2] at h1
  have h3 : ps.map (fun p => Key.num (p.number : Int)) = (ps.map (·.number)).map (fun n : Nat => Key.num (n : Int)) := by
    rw [List.map_map]; rfl
  rw [h3] at h1
  exact h1.of_map

end Faucet.Valid
