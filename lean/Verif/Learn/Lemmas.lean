import Verif.Learn.Spec
import Verif.HostCache.Lemmas
import Verif.FlowReorder.Simple

namespace Faucet.Learn
open Faucet.OF
open Faucet.HostCache (Port Entry Vlan Inv)
open Faucet.FlowReorder (Simple)

/-! ## Controller state -/

/-- Host caches are consistent and only name configured ports. -/
structure CInv (cfg : Cfg) (st : St) : Prop where
  inv : ∀ vid, Inv (st.vlan vid).hosts
  port : ∀ vid m e, host st vid m = some e → e.port = cfg.port e.port.number

theorem cinv_init (cfg : Cfg) : CInv cfg St.init :=
  ⟨fun _ => HostCache.inv_init, by intro vid m e h; simp [host, St.init, HostCache.cachedHost] at h⟩

theorem host_setVlan (st : St) (vid vid' m : Nat) (v : VlanSt) :
    host (st.setVlan vid v) vid' m = if vid' = vid then HostCache.cachedHost v.hosts m else host st vid' m := by
  unfold host St.setVlan
  simp only
  split <;> rfl

theorem host_setPort (st : St) (n vid' m : Nat) (p : PortDyn) : host (st.setPort n p) vid' m = host st vid' m := rfl

/-- The five outcomes of a packet. -/
inductive Outcome (cfg : Cfg) (st : St) (now : Int) (n vid m : Nat) : List OfMsg → St → Prop
  | limit (h : LimitReached cfg st n vid m) : Outcome cfg st now n vid m (banRules cfg st (cfg.port n) vid m) st
  | perm (h : ¬ LimitReached cfg st n vid m) (e : Entry) (he : host st vid m = some e) (hp : e.port.permanentLearn = true)
      (msgs : List OfMsg) (hm : permCheck cfg (some e) (cfg.port n) m = some msgs) : Outcome cfg st now n vid m msgs st
  | fresh (h : ¬ LimitReached cfg st n vid m) (hp : ¬ Permanent st vid m) (hf : Fresh cfg st now n vid m) :
      Outcome cfg st now n vid m [] st
  | ban (h : ¬ LimitReached cfg st n vid m) (hp : ¬ Permanent st vid m) (hf : ¬ Fresh cfg st now n vid m)
      (hb : LoopBanned cfg st now n vid m) (v' : Vlan)
      (hadd : HostCache.addCacheHost (st.vlan vid).hosts m (cfg.port n) now = some v') :
      Outcome cfg st now n vid m [tempBan cfg [iInPort n]]
        ((st.setPort n { st.port n with lastBan := some now }).setVlan vid { st.vlan vid with hosts := v' })
  | learn (h : ¬ LimitReached cfg st n vid m) (hp : ¬ Permanent st vid m) (hf : ¬ Fresh cfg st now n vid m)
      (hb : ¬ LoopBanned cfg st now n vid m) (v' : Vlan)
      (hadd : HostCache.addCacheHost (st.vlan vid).hosts m (cfg.port n) now = some v') (del refresh : Bool)
      (hd : cacheCheck cfg st now (host st vid m) (cfg.port n)
        (initialDelete st vid (host st vid m) true st.coldstart) = some (del, refresh)) :
      Outcome cfg st now n vid m
        (learnFlows cfg (cfg.port n) vid m del refresh (learnHostTimeouts cfg (cfg.port n) m))
        (st.setVlan vid { st.vlan vid with hosts := v' })

theorem banRules_ne {cfg : Cfg} {st : St} {n vid m : Nat} :
    banRules cfg st (cfg.port n) vid m ≠ [] ↔ LimitReached cfg st n vid m := by
  unfold banRules LimitReached host
  cases HostCache.cachedHost (st.vlan vid).hosts m with
  | none =>
    simp only [Option.isNone_none, if_true, true_and]
    by_cases h1 : (cfg.port n).maxHosts ≠ 0 ∧ portHostsCount cfg st (cfg.port n) = (cfg.port n).maxHosts
    · simp [h1]
    · by_cases h2 : cfg.vlanMax vid ≠ 0 ∧ HostCache.hostsCount (st.vlan vid).hosts = cfg.vlanMax vid
      · simp only [if_neg h1, if_pos h2]; simp [h1, h2]
      · simp only [if_neg h1, if_neg h2]; simp [h1, h2]
  | some e => simp

theorem permCheck_some {cfg : Cfg} {en : Option Entry} {p : Port} {m : Nat} {msgs : List OfMsg}
    (h : permCheck cfg en p m = some msgs) : ∃ e, en = some e ∧ e.port.permanentLearn = true := by
  unfold permCheck at h
  cases en with
  | none => cases h
  | some e =>
    simp only at h
    split at h
    · rename_i hp; exact ⟨e, rfl, hp⟩
    · cases h

theorem permCheck_none {cfg : Cfg} {st : St} {vid m : Nat} {p : Port}
    (h : permCheck cfg (host st vid m) p m = none) : ¬ Permanent st vid m := by
  rintro ⟨e, he, hp⟩
  rw [he] at h
  simp [permCheck, hp] at h

theorem cacheCheck_none {cfg : Cfg} (hw : cfg.WF) {st : St} {now : Int} {n vid m : Nat} {d : Bool} :
    cacheCheck cfg st now (host st vid m) (cfg.port n) d = none ↔ Fresh cfg st now n vid m := by
  unfold cacheCheck Fresh
  have hn := hw.portNum n
  cases host st vid m with
  | none => simp
  | some e =>
    simp only [Option.some.injEq]
    have hvalid : portCacheValid st (cfg.port n) e = true ↔ ∃ t, (st.port n).updateTime = some t ∧ t ≤ e.cacheTime := by
      unfold portCacheValid
      rw [hn]
      cases (st.port n).updateTime <;> simp
    have hlag : sameLag (cfg.port n) e.port = true ↔ ((cfg.port n).lacp ≠ 0 ∧ (cfg.port n).lacp = e.port.lacp) := by
      simp [sameLag]
    by_cases hl : sameLag (cfg.port n) e.port = true
    · have hl' := hlag.1 hl
      rw [if_pos (Or.inr hl), if_pos hl]
      by_cases hc : now - e.cacheTime < 2 ∧ portCacheValid st (cfg.port n) e = true
      · rw [if_pos hc]
        obtain ⟨t, ht1, ht2⟩ := hvalid.1 hc.2
        exact ⟨fun _ => ⟨e, t, rfl, Or.inl ⟨hl'.1, hl'.2, hc.1⟩, ht1, ht2⟩, fun _ => rfl⟩
      · rw [if_neg hc]
        refine ⟨fun h => by simp at h, ?_⟩
        rintro ⟨e', t, rfl, h, ht1, ht2⟩
        rcases h with h | h
        · exact absurd ⟨h.2.2, hvalid.2 ⟨t, ht1, ht2⟩⟩ hc
        · exact absurd hl' h.1
    · have hl' := fun h => hl (hlag.2 h)
      by_cases h1 : e.port.number = (cfg.port n).number
      · rw [if_pos (Or.inl h1), if_neg hl]
        by_cases hc : now - e.cacheTime < (cfg.guard : Int) ∧ portCacheValid st (cfg.port n) e = true
        · rw [if_pos hc]
          obtain ⟨t, ht1, ht2⟩ := hvalid.1 hc.2
          exact ⟨fun _ => ⟨e, t, rfl, Or.inr ⟨hl', by rw [h1, hn], hc.1⟩, ht1, ht2⟩, fun _ => rfl⟩
        · rw [if_neg hc]
          refine ⟨fun h => by simp at h, ?_⟩
          rintro ⟨e', t, rfl, h, ht1, ht2⟩
          rcases h with h | h
          · exact absurd ⟨h.1, h.2.1⟩ hl'
          · exact absurd ⟨h.2.2, hvalid.2 ⟨t, ht1, ht2⟩⟩ hc
      · rw [if_neg (fun h => h.elim h1 hl)]
        refine ⟨fun h => by simp at h, ?_⟩
        rintro ⟨e', t, rfl, h, ht1, ht2⟩
        rcases h with h | h
        · exact absurd ⟨h.1, h.2.1⟩ hl'
        · exact absurd (by rw [h.2.1, hn]) h1

theorem loopBan_iff {cfg : Cfg} (hw : cfg.WF) {st : St} {now : Int} {n vid m : Nat} :
    loopBan cfg st now (host st vid m) (cfg.port n) = true ↔ LoopBanned cfg st now n vid m := by
  unfold loopBan LoopBanned recentBan rapidMove
  rw [hw.portNum n]
  simp only [Bool.and_eq_true, Bool.or_eq_true]
  apply and_congr_right
  intro _
  apply or_congr
  · cases (st.port n).lastBan <;> simp
  · cases host st vid m
    · simp
    · simp only [decide_eq_true_eq, Option.some.injEq, exists_eq_left']
      constructor
      · rintro ⟨h1, h2⟩; exact ⟨fun h => h1 h.symm, h2⟩
      · rintro ⟨h1, h2⟩; exact ⟨fun h => h1 h.symm, h2⟩

theorem rcv_outcome {cfg : Cfg} (hw : cfg.WF) {st : St} (hi : CInv cfg st) (now : Int) (n vid m : Nat) :
    ∃ msgs st', rcvPacket cfg st now (cfg.port n) vid m = some (msgs, st') ∧ Outcome cfg st now n vid m msgs st' := by
  unfold rcvPacket
  by_cases hl : LimitReached cfg st n vid m
  · have hb := banRules_ne.2 hl
    exact ⟨_, _, by rw [if_pos hb], Outcome.limit hl⟩
  · have hb : ¬ banRules cfg st (cfg.port n) vid m ≠ [] := fun h => hl (banRules_ne.1 h)
    rw [if_neg hb]
    unfold learnHost learnHostOnVlanPorts
    have hh : HostCache.cachedHost (st.vlan vid).hosts m = host st vid m := rfl
    simp only [hh]
    cases hp : permCheck cfg (host st vid m) (cfg.port n) m with
    | some msgs =>
      obtain ⟨e, he, hpe⟩ := permCheck_some hp
      refine ⟨msgs, st, by simp, Outcome.perm hl e he hpe msgs (by rw [← he]; exact hp)⟩
    | none =>
      have hnp := permCheck_none hp
      cases hc : cacheCheck cfg st now (host st vid m) (cfg.port n)
          (initialDelete st vid (host st vid m) true st.coldstart) with
      | none => exact ⟨[], st, by simp, Outcome.fresh hl hnp ((cacheCheck_none hw).1 hc)⟩
      | some dr =>
        obtain ⟨del, refresh⟩ := dr
        have hnf : ¬ Fresh cfg st now n vid m := by
          intro hf
          rw [← cacheCheck_none hw (d := initialDelete st vid (host st vid m) true st.coldstart)] at hf
          rw [hf] at hc; cases hc
        obtain ⟨v', hv, _⟩ := HostCache.add_spec (hi.inv vid) m (cfg.port n) now
        by_cases hban : loopBan cfg st now (host st vid m) (cfg.port n) = true
        · refine ⟨_, _, ?_, Outcome.ban hl hnp hnf ((loopBan_iff hw).1 hban) v' hv⟩
          simp [hban, St.setPort, hv, hw.portNum n]
        · refine ⟨_, _, ?_, Outcome.learn hl hnp hnf (fun h => hban ((loopBan_iff hw).2 h)) v' hv del refresh hc⟩
          simp [hban, hv]

end Faucet.Learn
