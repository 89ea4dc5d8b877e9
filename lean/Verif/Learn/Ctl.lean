import Verif.Learn.Lemmas
import Mathlib.Data.List.Perm.Subperm
import Mathlib.Tactic.ByContra

/-! # What each event does to the host table -/

namespace Faucet.Learn
open Faucet.OF
open Faucet.HostCache (Port Entry Vlan Inv)

theorem mem_keys_iff {κ α : Type} [DecidableEq κ] {d : Dict κ α} {k : κ} : k ∈ d.keys ↔ d.get? k ≠ none := by
  rw [← Dict.get?_isSome_iff_mem_keys]
  cases d.get? k <;> simp

theorem length_le_of_get {v v' : Vlan} (hi : Inv v) (hi' : Inv v')
    (h : ∀ x e, v'.hostCache.get? x = some e → v.hostCache.get? x ≠ none) :
    HostCache.hostsCount v' ≤ HostCache.hostsCount v := by
  have h1 : v'.hostCache.keys ⊆ v.hostCache.keys := by
    intro k hk
    rw [mem_keys_iff] at hk ⊢
    cases hg : v'.hostCache.get? k with
    | none => exact absurd hg hk
    | some e => exact h k e hg
  have := (List.subperm_of_subset hi'.nodup h1).length_le
  simpa [Dict.keys, HostCache.hostsCount] using this

theorem onPort_length_le {v v' : Vlan} (hi : Inv v) (hi' : Inv v') (n : Nat)
    (h : ∀ x e, HostCache.cachedHost v' x = some e → e.port.number = n →
      ∃ e', HostCache.cachedHost v x = some e' ∧ e'.port.number = n) :
    (HostCache.onPort v' n).length ≤ (HostCache.onPort v n).length := by
  have h1 : (HostCache.onPort v' n).map (·.ethSrc) ⊆ (HostCache.onPort v n).map (·.ethSrc) := by
    intro k hk
    obtain ⟨e, he, rfl⟩ := List.mem_map.1 hk
    obtain ⟨h2, h3⟩ := (hi'.index n e).1 he
    obtain ⟨e', h4, h5⟩ := h _ _ h2 h3
    have h6 := hi.key _ _ h4
    refine List.mem_map.2 ⟨e', (hi.index n e').2 ⟨?_, h5⟩, h6⟩
    rw [h6]; exact h4
  simpa using (List.subperm_of_subset (hi'.nodupPort n) h1).length_le

theorem onPort_length_add {v v' : Vlan} (hi : Inv v) (hi' : Inv v') (n m : Nat)
    (h : ∀ x e, HostCache.cachedHost v' x = some e → e.port.number = n → x = m ∨
      ∃ e', HostCache.cachedHost v x = some e' ∧ e'.port.number = n) :
    (HostCache.onPort v' n).length ≤ (HostCache.onPort v n).length + 1 := by
  have h1 : (HostCache.onPort v' n).map (·.ethSrc) ⊆ m :: (HostCache.onPort v n).map (·.ethSrc) := by
    intro k hk
    obtain ⟨e, he, rfl⟩ := List.mem_map.1 hk
    obtain ⟨h2, h3⟩ := (hi'.index n e).1 he
    rcases h _ _ h2 h3 with h4 | ⟨e', h4, h5⟩
    · rw [h4]; exact List.mem_cons_self
    have h6 := hi.key _ _ h4
    refine List.mem_cons_of_mem _ (List.mem_map.2 ⟨e', (hi.index n e').2 ⟨?_, h5⟩, h6⟩)
    rw [h6]; exact h4
  simpa using (List.subperm_of_subset (hi'.nodupPort n) h1).length_le

theorem host_eq (st : St) (vid m : Nat) : host st vid m = (st.vlan vid).hosts.hostCache.get? m := rfl

/-- Storing a new table for one VLAN. -/
theorem cinv_setVlan {cfg : Cfg} {st : St} (hi : CInv cfg st) (vid : Nat) (v : VlanSt) (hv : Inv v.hosts)
    (hp : ∀ m e, HostCache.cachedHost v.hosts m = some e → e.port = cfg.port e.port.number) :
    CInv cfg (st.setVlan vid v) := by
  constructor
  · intro vid'
    simp only [St.setVlan]
    split
    · exact hv
    · exact hi.inv vid'
  · intro vid' m e he
    rw [host_setVlan] at he
    split at he
    · exact hp m e he
    · exact hi.port vid' m e he

theorem cinv_setPort {cfg : Cfg} {st : St} (hi : CInv cfg st) (n : Nat) (p : PortDyn) : CInv cfg (st.setPort n p) :=
  ⟨hi.inv, hi.port⟩

/-- Learning: exactly the one entry is set. -/
theorem add_effect {cfg : Cfg} (hw : cfg.WF) {st : St} (hi : CInv cfg st) {now : Int} {n vid m : Nat} {v' : Vlan}
    (hadd : HostCache.addCacheHost (st.vlan vid).hosts m (cfg.port n) now = some v') :
    Inv v' ∧ (∀ m e, HostCache.cachedHost v' m = some e → e.port = cfg.port e.port.number) ∧
    (∀ x, HostCache.cachedHost v' x = if m = x then some ⟨m, cfg.port n, now⟩ else host st vid x) ∧
    v'.oldest = (st.vlan vid).hosts.oldest ∧
    (host st vid m ≠ none → HostCache.hostsCount v' = HostCache.hostsCount (st.vlan vid).hosts) ∧
    (HostCache.hostsCount v' ≤ HostCache.hostsCount (st.vlan vid).hosts + 1) := by
  obtain ⟨w, h1, h2, ho, h3, h4⟩ := HostCache.add_spec (hi.inv vid) m (cfg.port n) now
  rw [hadd] at h1; cases h1
  refine ⟨h2, ?_, h3, ho, ?_, ?_⟩
  · intro x e he
    rw [HostCache.cachedHost, h3] at he
    split at he
    · cases he; show cfg.port n = cfg.port (cfg.port n).number; rw [hw.portNum]
    · exact hi.port vid x e he
  · intro hne
    unfold HostCache.hostsCount
    rw [h4, Dict.length_set_of_mem ((mem_keys_iff).2 hne)]
  · unfold HostCache.hostsCount
    rw [h4]
    by_cases hm : m ∈ (st.vlan vid).hosts.hostCache.keys
    · rw [Dict.length_set_of_mem hm]; omega
    · rw [Dict.length_set_of_not_mem hm]; exact Nat.le_refl _

/-- A state that differs in one VLAN by removals. -/
structure Removal (cfg : Cfg) (st st' : St) : Prop where
  cinv : CInv cfg st'
  keep : ∀ vid m e, host st' vid m = some e → host st vid m = some e
  port : st'.port = st.port
  cold : st'.coldstart = st.coldstart

theorem Removal.refl {cfg : Cfg} {st : St} (hi : CInv cfg st) : Removal cfg st st :=
  ⟨hi, fun _ _ _ h => h, rfl, rfl⟩

theorem Removal.trans {cfg : Cfg} {a b c : St} (h1 : Removal cfg a b) (h2 : Removal cfg b c) : Removal cfg a c :=
  ⟨h2.cinv, fun _ _ _ h => h1.keep _ _ _ (h2.keep _ _ _ h), h2.port.trans h1.port, h2.cold.trans h1.cold⟩

theorem removal_setVlan {cfg : Cfg} {st : St} (hi : CInv cfg st) (vid : Nat) (v : VlanSt) (hv : Inv v.hosts)
    (h : ∀ m e, HostCache.cachedHost v.hosts m = some e → host st vid m = some e) :
    Removal cfg st (st.setVlan vid v) := by
  refine ⟨cinv_setVlan hi vid v hv (fun m e he => hi.port vid m e (h m e he)), ?_, rfl, rfl⟩
  intro vid' m e he
  rw [host_setVlan] at he
  split at he
  · rename_i hv'; rw [hv']; exact h m e he
  · exact he

/-- Expiry. -/
theorem sweep_effect {cfg : Cfg} {st : St} (hi : CInv cfg st) (now : Int) (vid : Nat) :
    ∃ ex st', sweep cfg st now vid =
        some (if cfg.idleDst then [] else ex.flatMap (fun e => deleteHost cfg e.ethSrc vid), st') ∧
      expireHosts cfg st now vid = some (ex, st') ∧
      Removal cfg st st' ∧
      (∀ vid' m, host st' vid' m = if vid' = vid ∧ m ∈ ex.map (·.ethSrc) then none else host st vid' m) ∧
      (∀ e ∈ ex, host st vid e.ethSrc = some e ∧ e.port.permanentLearn = false ∧
        e.cacheTime < now - cfg.learnTimeout ∧ cfg.flowRemoved = false) ∧
      (∀ vid', (st'.vlan vid').lastExpired =
        if vid' = vid ∧ ex ≠ [] then some now else (st.vlan vid').lastExpired) := by
  unfold sweep expireHosts
  by_cases hf : cfg.flowRemoved = true
  · rw [if_pos hf]
    refine ⟨[], st, by simp, rfl, Removal.refl hi, by simp, by simp, by simp⟩
  · rw [if_neg hf]
    obtain ⟨ex, v', h1, h2, h3⟩ := HostCache.sweep_spec (hi.inv vid) now cfg.learnTimeout
    have hget : ∀ x, v'.hostCache.get? x = if x ∈ ex.map (·.ethSrc) then none else host st vid x := by
      intro x
      split at h3
      · obtain ⟨h3, _, h4⟩ := h3
        rw [h4]
        have := HostCache.mem_expired (hi.inv vid) (now - cfg.learnTimeout) x
        rw [← h3] at this
        by_cases hx : x ∈ ex.map (·.ethSrc)
        · rw [if_pos (this.1 hx), if_pos hx]
        · rw [if_neg (fun h => hx (this.2 h)), if_neg hx]; rfl
      · obtain ⟨rfl, rfl⟩ := h3
        simp; rfl
    refine ⟨ex, _, by rw [h1]; rfl, by rw [h1]; rfl, removal_setVlan hi vid _ h2 ?_, ?_, ?_, ?_⟩
    · intro m e he
      have he : v'.hostCache.get? m = some e := he
      rw [hget] at he
      split at he
      · cases he
      · exact he
    · intro vid' m
      rw [host_setVlan]
      by_cases hv : vid' = vid
      · subst hv
        rw [if_pos rfl]
        show v'.hostCache.get? m = _
        rw [hget]
        simp
      · rw [if_neg hv, if_neg (fun h => hv h.1)]
    · intro e he
      split at h3
      · obtain ⟨h3, _, _⟩ := h3
        rw [h3] at he
        obtain ⟨ha, hb⟩ := List.mem_filter.1 he
        simp only [Bool.and_eq_true, decide_eq_true_eq, Bool.not_eq_true'] at hb
        obtain ⟨k, hk⟩ := Dict.mem_values.1 ha
        have hg := Dict.get?_of_mem (hi.inv vid).nodup hk
        have hkk := (hi.inv vid).key _ _ hg
        refine ⟨?_, hb.2, hb.1, by simpa using hf⟩
        rw [hkk]; exact hg
      · obtain ⟨rfl, _⟩ := h3
        cases he
    · intro vid'
      simp only [St.setVlan]
      by_cases hv : vid' = vid
      · subst hv
        by_cases hx : ex = []
        · simp [hx]
        · simp [hx]
      · simp [hv]

theorem clear_effect {cfg : Cfg} {st : St} (hi : CInv cfg st) (vid n : Nat) (hw : cfg.WF) :
    ∃ h, HostCache.clearCacheHostsOnPort (st.vlan vid).hosts (cfg.port n) = some h ∧ Inv h ∧
      h.oldest = (st.vlan vid).hosts.oldest ∧
      (∀ m, HostCache.cachedHost h m =
        if ∃ e, host st vid m = some e ∧ e.port.number = n then none else host st vid m) := by
  obtain ⟨v', h1, h2, h3, h4, _⟩ := HostCache.expireAll_spec
    (HostCache.cachedHostsOnPort (st.vlan vid).hosts (cfg.port n)) (hi.inv vid)
  refine ⟨v', h1, h2, h3, ?_⟩
  intro m
  rw [HostCache.cachedHost, h4, HostCache.cachedHostsOnPort_eq, hw.portNum]
  have : m ∈ (HostCache.onPort (st.vlan vid).hosts n).map (·.ethSrc) ↔
      ∃ e, host st vid m = some e ∧ e.port.number = n := by
    rw [List.mem_map]
    constructor
    · rintro ⟨e, he, rfl⟩; exact ⟨e, ((hi.inv vid).index n e).1 he⟩
    · rintro ⟨e, he, hn⟩
      have hk := (hi.inv vid).key _ _ he
      refine ⟨e, ((hi.inv vid).index n e).2 ⟨?_, hn⟩, hk⟩
      rw [hk]; exact he
  by_cases h : ∃ e, host st vid m = some e ∧ e.port.number = n
  · rw [if_pos h, if_pos (this.2 h)]
  · rw [if_neg h, if_neg (fun hh => h (this.1 hh))]; rfl

theorem clearVlans_effect {cfg : Cfg} (hw : cfg.WF) (n : Nat) (vids : List Nat) : ∀ {st : St}, CInv cfg st →
    ∃ st', clearVlans cfg (cfg.port n) vids st = some st' ∧ Removal cfg st st' ∧
      (∀ vid m, host st' vid m =
        if vid ∈ vids ∧ ∃ e, host st vid m = some e ∧ e.port.number = n then none else host st vid m) ∧
      (∀ vid, (st'.vlan vid).lastExpired = (st.vlan vid).lastExpired) := by
  induction vids with
  | nil => intro st hi; exact ⟨st, rfl, Removal.refl hi, by simp, fun _ => rfl⟩
  | cons v vids ih =>
    intro st hi
    obtain ⟨h, h1, h2, _, h3⟩ := clear_effect hi v n hw
    have hr : Removal cfg st (st.setVlan v { st.vlan v with hosts := h }) := by
      refine removal_setVlan hi v _ h2 ?_
      intro m e he
      have he : HostCache.cachedHost h m = some e := he
      rw [h3] at he
      split at he
      · cases he
      · exact he
    obtain ⟨st', h4, h5, h6, h7⟩ := ih hr.cinv
    refine ⟨st', by simp [clearVlans, h1, h4], hr.trans h5, ?_, ?_⟩
    · intro vid m
      rw [h6, host_setVlan]
      by_cases hv : vid = v
      · subst hv
        simp only [if_true, List.mem_cons, true_or, true_and]
        rw [h3]
        by_cases hc : ∃ e, host st vid m = some e ∧ e.port.number = n
        · rw [if_pos hc]; simp
        · rw [if_neg hc, if_neg (fun hh => hc hh.2)]
      · simp only [hv, if_false, List.mem_cons, false_or]
    · intro vid
      rw [h7]
      simp only [St.setVlan]
      split
      · rename_i h; rw [h]
      · rfl

theorem portDelete_effect {cfg : Cfg} (hw : cfg.WF) {st : St} (hi : CInv cfg st) (n : Nat) :
    ∃ st', portDelete cfg st n =
        some (if cfg.portVlans n = [] ∨ (cfg.port n).lacp ≠ 0 then [] else delHostFlows cfg n, st') ∧
      Removal cfg st st' ∧
      (∀ vid m, host st' vid m =
        if (cfg.port n).lacp = 0 ∧ vid ∈ cfg.portVlans n ∧ ∃ e, host st vid m = some e ∧ e.port.number = n then none else host st vid m) ∧
      (∀ vid, (st'.vlan vid).lastExpired = (st.vlan vid).lastExpired) := by
  unfold portDelete
  by_cases h : cfg.portVlans n = [] ∨ (cfg.port n).lacp ≠ 0
  · simp only [if_pos h]
    refine ⟨st, rfl, Removal.refl hi, fun vid m => ?_, fun _ => rfl⟩
    rw [if_neg]
    rintro ⟨h1, h2, _⟩
    rcases h with h | h
    · rw [h] at h2; cases h2
    · exact h h1
  · simp only [if_neg h]
    obtain ⟨st', h1, h2, h3, h4⟩ := clearVlans_effect hw n (cfg.portVlans n) hi
    have hl : (cfg.port n).lacp = 0 := by
      by_contra hl; exact h (Or.inr hl)
    refine ⟨st', by rw [h1]; rfl, h2, fun vid m => ?_, h4⟩
    rw [h3]
    simp only [hl, true_and]

theorem srcRemoved_effect {cfg : Cfg} (hw : cfg.WF) {st : St} (hi : CInv cfg st) (vid n m : Nat) :
    ∃ st', react cfg st (.srcRemoved vid n m) = some ([], st') ∧ Removal cfg st st' ∧
      (∀ vid' m', host st' vid' m' =
        if cfg.flowRemoved = true ∧ vid' = vid ∧ m' = m ∧ ∃ e, host st vid m = some e ∧ e.port.number = n
        then none else host st vid' m') ∧
      (∀ vid, (st'.vlan vid).lastExpired = (st.vlan vid).lastExpired) := by
  simp only [react]
  by_cases hf : cfg.flowRemoved = true
  · rw [if_pos hf]
    unfold srcRuleExpire
    have hc : HostCache.cachedHostOnPort (st.vlan vid).hosts m (cfg.port n) =
        match host st vid m with
        | some e => if n = e.port.number then some e else none
        | none => none := by
      unfold HostCache.cachedHostOnPort
      rw [hw.portNum]; rfl
    by_cases hx : ∃ e, host st vid m = some e ∧ e.port.number = n
    · obtain ⟨e, he, hn⟩ := hx
      have : HostCache.cachedHostOnPort (st.vlan vid).hosts m (cfg.port n) = some e := by
        rw [hc, he]; simp [hn]
      rw [this]
      obtain ⟨v', h1, h2, h3, h4, _⟩ := HostCache.expire_spec (hi.inv vid) m
      refine ⟨st.setVlan vid { st.vlan vid with hosts := v' }, by simp only [h1, Option.map_some],
        removal_setVlan hi vid _ h2 ?_, ?_, ?_⟩
      · intro x e hx
        have hx : v'.hostCache.get? x = some e := hx
        rw [h4] at hx
        split at hx
        · cases hx
        · exact hx
      · intro vid' m'
        rw [host_setVlan]
        by_cases hv : vid' = vid
        · subst hv
          rw [if_pos rfl]
          show v'.hostCache.get? m' = _
          rw [h4]
          by_cases hm : m = m'
          · subst hm; rw [if_pos rfl, if_pos ⟨hf, rfl, rfl, e, he, hn⟩]
          · rw [if_neg hm, if_neg (fun h => hm h.2.2.1.symm)]; rfl
        · rw [if_neg hv, if_neg (fun h => hv h.2.1)]
      · intro vid'
        simp only [St.setVlan]
        split
        · rename_i h; rw [h]
        · rfl
    · have : HostCache.cachedHostOnPort (st.vlan vid).hosts m (cfg.port n) = none := by
        rw [hc]
        cases he : host st vid m with
        | none => rfl
        | some e =>
          simp only
          rw [if_neg (fun h => hx ⟨e, he, h.symm⟩)]
      rw [this]
      refine ⟨st, rfl, Removal.refl hi, ?_, fun _ => rfl⟩
      intro vid' m'
      rw [if_neg (fun h => hx h.2.2.2)]
  · rw [if_neg hf]
    exact ⟨st, rfl, Removal.refl hi, by simp [hf], fun _ => rfl⟩

/-- A destination rule removal never changes the host table. -/
theorem dstRemoved_effect {cfg : Cfg} {st : St} (now : Int) (vid m : Nat) :
    ∃ msgs st', react cfg st (.dstRemoved now vid m) = some (msgs, st') ∧ st'.vlan = st.vlan ∧
      st'.coldstart = st.coldstart ∧ (∀ n, (st'.port n).updateTime = (st.port n).updateTime) := by
  simp only [react]
  split
  · unfold dstRuleExpire
    cases HostCache.cachedHost (st.vlan vid).hosts m with
    | none => exact ⟨_, _, rfl, rfl, rfl, fun _ => rfl⟩
    | some e =>
      refine ⟨_, _, rfl, ?_⟩
      unfold learnHostOnVlanPorts
      simp only
      split
      · exact ⟨rfl, rfl, fun _ => rfl⟩
      · split
        · exact ⟨rfl, rfl, fun _ => rfl⟩
        · split
          · refine ⟨rfl, rfl, ?_⟩
            intro n
            simp only [St.setPort]
            split
            · rename_i h; rw [h]
            · rfl
          · exact ⟨rfl, rfl, fun _ => rfl⟩
  · exact ⟨_, _, rfl, rfl, rfl, fun _ => rfl⟩

/-- Every event is handled without an exception and keeps the host tables consistent. -/
theorem react_cinv {cfg : Cfg} (hw : cfg.WF) {st : St} (hi : CInv cfg st) (ev : Ev) :
    ∃ msgs st', react cfg st ev = some (msgs, st') ∧ CInv cfg st' := by
  cases ev with
  | packet now n vid m =>
    obtain ⟨msgs, st', h1, h2⟩ := rcv_outcome hw hi now n vid m
    refine ⟨msgs, st', h1, ?_⟩
    cases h2 with
    | limit _ => exact hi
    | perm _ => exact hi
    | fresh _ => exact hi
    | ban _ _ _ _ v' hadd =>
      obtain ⟨a, b, _⟩ := add_effect hw hi hadd
      exact cinv_setVlan (cinv_setPort hi _ _) vid _ a b
    | learn _ _ _ _ v' hadd =>
      obtain ⟨a, b, _⟩ := add_effect hw hi hadd
      exact cinv_setVlan hi vid _ a b
  | expire now vid =>
    obtain ⟨ex, st', h1, _, h2, _⟩ := sweep_effect hi now vid
    exact ⟨_, st', h1, h2.cinv⟩
  | portDelete n =>
    obtain ⟨st', h1, h2, _⟩ := portDelete_effect hw hi n
    exact ⟨_, st', h1, h2.cinv⟩
  | portDown n => exact ⟨_, _, rfl, hi⟩
  | portUpdate now n => exact ⟨_, _, rfl, cinv_setPort hi _ _⟩
  | coldStart now =>
    refine ⟨_, _, rfl, fun vid => HostCache.inv_reset _, ?_⟩
    intro vid m e he
    simp [host, coldStart, HostCache.resetCaches, HostCache.cachedHost] at he
  | flowGone s => exact ⟨_, _, rfl, hi⟩
  | srcRemoved vid n m =>
    obtain ⟨st', h1, h2, _⟩ := srcRemoved_effect hw hi vid n m
    exact ⟨_, st', h1, h2.cinv⟩
  | dstRemoved now vid m =>
    obtain ⟨msgs, st', h1, h2, _⟩ := dstRemoved_effect (cfg := cfg) (st := st) now vid m
    refine ⟨msgs, st', h1, ?_, ?_⟩
    · intro vid'; rw [h2]; exact hi.inv vid'
    · intro vid' x e he
      apply hi.port vid' x e
      unfold host at he ⊢
      rw [← h2]; exact he

theorem ctlRun_cinv {cfg : Cfg} (hw : cfg.WF) (evs : List Ev) : ∀ {st : St}, CInv cfg st →
    ∃ st', ctlRun cfg st evs = some st' ∧ CInv cfg st' := by
  induction evs with
  | nil => intro st hi; exact ⟨st, rfl, hi⟩
  | cons ev evs ih =>
    intro st hi
    obtain ⟨msgs, st1, h1, h2⟩ := react_cinv hw hi ev
    obtain ⟨st', h3, h4⟩ := ih h2
    exact ⟨st', by simp [ctlRun, h1, h3], h4⟩

theorem ctlRun_append {cfg : Cfg} (a b : List Ev) (st : St) :
    ctlRun cfg st (a ++ b) = (ctlRun cfg st a).bind (fun s => ctlRun cfg s b) := by
  induction a generalizing st with
  | nil => rfl
  | cons ev evs ih =>
    simp only [List.cons_append, ctlRun]
    cases react cfg st ev with
    | none => rfl
    | some r => simp [ih]

end Faucet.Learn
