import Verif.L2.Isolation

/-! # One standalone switch: where FAUCET knows a host, it heard of it (C62) -/

namespace Faucet.L2
open Faucet.OF
open Faucet.Learn (host CInv)

/-- FAUCET was told of a packet from the address, on the port and the VLAN. -/
def Sys.HeardOn (s : Sys) (vid m n : Nat) : Prop := ∃ x, s.seen x ∧ x.src = m ∧ x.port = n ∧ ∃ pcp rest, x.tags = (vid, pcp) :: rest

/-- Every known host is where packets `S` came from. -/
def HostsFrom (S : PacketIn → Prop) (st : Learn.St) : Prop :=
  ∀ vid m e, host st vid m = some e → ∃ x, S x ∧ x.src = m ∧ x.port = e.port.number ∧ ∃ pcp rest, x.tags = (vid, pcp) :: rest

theorem from_removal {S : PacketIn → Prop} {cfg : Learn.Cfg} {st st' : Learn.St} (h : Learn.Removal cfg st st') (hh : HostsFrom S st) : HostsFrom S st' :=
  fun vid m e he => hh vid m e (h.keep vid m e he)

theorem rcv_from {c : Cfg} {S : PacketIn → Prop} {st : Learn.St} (hi : CInv c.learn st) (hh : HostsFrom S st) {now : Int} {n vid m : Nat}
    (hS : ∃ x, S x ∧ x.src = m ∧ x.port = n ∧ ∃ pcp rest, x.tags = (vid, pcp) :: rest)
    {ms : List OfMsg} {st' : Learn.St} (h : Learn.rcvPacket c.learn st now (c.hostPort n) vid m = some (ms, st')) : HostsFrom S st' := by
  have hw := learn_wf c
  obtain ⟨msgs, st'', h1, h2⟩ := Learn.rcv_outcome hw hi now n vid m
  have h1' : Learn.rcvPacket c.learn st now (c.hostPort n) vid m = some (msgs, st'') := h1
  rw [h] at h1'
  cases h1'
  have hnew : ∀ v', HostCache.addCacheHost (st.vlan vid).hosts m (c.learn.port n) now = some v' →
      ∀ (s2 : Learn.St), s2.vlan = st.vlan → ∀ w : Learn.VlanSt, w.hosts = v' → HostsFrom S (s2.setVlan vid w) := by
    intro v' hadd s2 hs w hwv vid' m' e he
    obtain ⟨-, -, h3, -⟩ := Learn.add_effect hw hi hadd
    rw [Learn.host_setVlan] at he
    by_cases hv : vid' = vid
    · rw [if_pos hv, hwv, h3] at he
      by_cases hm : m = m'
      · rw [if_pos hm] at he
        cases he
        obtain ⟨x, a, b, d, f⟩ := hS
        refine ⟨x, a, b.trans hm, ?_, by rw [hv]; exact f⟩
        show x.port = (c.hostPort n).number
        rw [hostPort_number, d]
      · rw [if_neg hm] at he
        rw [hv]; exact hh vid m' e he
    · rw [if_neg hv] at he
      apply hh vid' m' e
      unfold host at he ⊢
      rw [← hs]; exact he
  cases h2 with
  | limit _ => exact hh
  | perm _ e he hp _ hm => exact hh
  | fresh _ => exact hh
  | ban _ _ _ _ v' hadd => exact hnew v' hadd _ rfl _ rfl
  | learn _ _ _ _ v' hadd del refresh hd => exact hnew v' hadd _ rfl _ rfl

theorem react_from {c : Cfg} {S : PacketIn → Prop} {s : Ctl} (hi : CInv c.learn s.learn) (hh : HostsFrom S s.learn) {ev : Ev}
    (hs : ∀ now k, ev = .packetIn now k → S k) {ms : List OfMsg} {s' : Ctl} (h : c.react s ev = some (ms, s')) : HostsFrom S s'.learn := by
  cases ev with
  | connect now up lag =>
    simp only [Cfg.react, Option.some.injEq, Prod.mk.injEq] at h
    obtain ⟨rfl, rfl⟩ := h
    intro vid m e he
    simp [host, Learn.coldStart, HostCache.resetCaches, HostCache.cachedHost] at he
  | disconnect now lag =>
    simp only [Cfg.react, Option.map_eq_some_iff, Prod.mk.injEq] at h
    obtain ⟨st, hst, rfl, rfl⟩ := h
    have hi' := cinv_update now c.ports hi
    refine from_removal (forgetAll_removal c.ports hi' hst) ?_
    intro vid m e he
    exact hh vid m e (by rw [← host_update now c.ports s.learn vid m]; exact he)
  | packetIn now k =>
    have hk := hs now k rfl
    simp only [Cfg.react] at h
    split at h
    · rename_i vid hv
      simp only [Option.map_eq_some_iff] at h
      obtain ⟨⟨ms', st⟩, h1, h2⟩ := h
      simp only [Ctl.withLearn, Prod.mk.injEq] at h2
      obtain ⟨rfl, rfl⟩ := h2
      refine rcv_from hi hh ?_ h1
      unfold Cfg.accepted at hv
      split at hv
      · cases hv
      · rename_i t r ht
        split at hv
        · obtain rfl := Option.some.inj hv
          exact ⟨k, hk, rfl, rfl, t.2, r, ht⟩
        · cases hv
    · simp only [Option.some.injEq, Prod.mk.injEq] at h
      obtain ⟨rfl, rfl⟩ := h
      exact hh
  | expire now vid =>
    simp only [Cfg.react] at h
    split at h
    · obtain ⟨ex, st, h1, -, h2, -⟩ := Learn.sweep_effect hi now vid
      rw [h1] at h
      simp only [Option.map_some, Ctl.withLearn, Option.some.injEq, Prod.mk.injEq] at h
      obtain ⟨rfl, rfl⟩ := h
      exact from_removal h2 hh
    · simp only [Option.some.injEq, Prod.mk.injEq] at h
      obtain ⟨rfl, rfl⟩ := h
      exact hh
  | portUp now n lag =>
    simp only [Cfg.react] at h
    split at h <;> (simp only [Option.some.injEq, Prod.mk.injEq] at h; obtain ⟨rfl, rfl⟩ := h; exact hh)
  | portDown now n lag =>
    simp only [Cfg.react] at h
    split at h <;> (simp only [Option.some.injEq, Prod.mk.injEq] at h; obtain ⟨rfl, rfl⟩ := h; exact hh)
  | lag n sel act =>
    simp only [Cfg.react] at h
    split at h
    · split at h <;> (simp only [Option.some.injEq, Prod.mk.injEq] at h; obtain ⟨rfl, rfl⟩ := h; exact hh)
    · simp only [Option.some.injEq, Prod.mk.injEq] at h
      obtain ⟨rfl, rfl⟩ := h
      exact hh
  | srcRemoved vid n m =>
    obtain ⟨st, h1, h2, -⟩ := Learn.srcRemoved_effect (learn_wf c) hi vid n m
    simp only [Cfg.react, h1, Option.map_some, Ctl.withLearn, Option.some.injEq, Prod.mk.injEq] at h
    obtain ⟨rfl, rfl⟩ := h
    exact from_removal h2 hh
  | dstRemoved now vid m =>
    simp only [Cfg.react, Option.map_eq_some_iff] at h
    obtain ⟨⟨ms', st⟩, h1, h2⟩ := h
    simp only [Ctl.withLearn, Prod.mk.injEq] at h2
    obtain ⟨rfl, rfl⟩ := h2
    obtain ⟨msgs, st'', h3, h4, -⟩ := Learn.dstRemoved_effect (cfg := c.learn) (st := s.learn) now vid m
    rw [h1] at h3
    cases h3
    have hhost : ∀ vid m, host st vid m = host s.learn vid m := fun vid m => by unfold host; rw [h4]
    exact fun v x e he => hh v x e (by rw [← hhost]; exact he)

/-- **C62.** Where FAUCET knows a host, it was told of a packet from it: one that came in through the port that it knows the host
on, and was in the VLAN. -/
theorem known_was_heard {c : Cfg} (hw : c.WF) {s : Sys} (h : Reach c (fun k => Wire k ∧ Plain c k) s) {vid m : Nat}
    {e : HostCache.Entry} (he : host s.ctl.learn vid m = some e) : s.HeardOn vid m e.port.number := by
  have key : HostsFrom s.seen s.ctl.learn := by
    clear he
    induction h with
    | start hsh hr hout =>
      simp only [Cfg.react, Option.some.injEq, Prod.mk.injEq] at hr
      obtain ⟨-, rfl⟩ := hr
      intro vid m e he
      simp [host, Learn.coldStart, HostCache.resetCaches, HostCache.cachedHost] at he
    | event hreach hsh hseen hr hout ih =>
      exact react_from (reach_inv hw hreach).cinv ih hseen hr
    | packet hreach hok hproc ih =>
      intro vid m e he
      obtain ⟨x, a, b⟩ := ih vid m e he
      exact ⟨x, Or.inl a, b⟩
    | timeout hreach hf ht ih => exact ih
  exact key vid m e he

end Faucet.L2
