import Verif.Learn.Ctl
import Mathlib.Tactic.ByContra

/-!
# Properties of learning: the controller's host table (C03, C04, C05, C06)
-/

namespace Faucet.Learn
open Faucet.OF
open Faucet.HostCache (Port Entry Vlan Inv)

/-! ## An example datapath -/

/-- Four ports on one VLAN: port 3 learns permanently, port 4 protects against loops and takes 1 host;
ports 5 and 6 are one LAG; at most 3 hosts on the VLAN. -/
def exCfg : Cfg where
  port n := { number := n, permanentLearn := n == 3, loopProtect := n == 4, maxHosts := if n == 4 then 1 else 0,
              lacp := if n == 5 || n == 6 then 1 else 0, hairpin := n == 2 }
  portVlans _ := [100]
  loopProtectExternal _ := false
  untagged _ n := n == 1
  mirror _ := []
  vlanMax _ := 3
  learnTimeout := 300
  learnJitter := 51
  guard := 150
  learnBan := 51
  idleDst := true
  hasExternals := false
  flowRemoved := false
  macHash m := m
  ethSrc := ⟨1, 7⟩
  ethDst := ⟨3, 7⟩
  hairpin := some ⟨2, 7⟩
  classification := ⟨1, 7⟩
  egress := none

theorem exCfg_wf : exCfg.WF := by
  constructor
  · intro n; rfl
  all_goals first
    | decide
    | (intro t h; cases h; decide)

/-! ## C03 -/

/-- C03. Whatever happens on the network and to other ports, a host learned on a permanent-learn port stays
exactly as it was learned: it is not aged out and not moved. -/
theorem permanent_sticks (cfg : Cfg) (hw : cfg.WF) (past future : List Ev) (st : St)
    (hst : ctlRun cfg St.init past = some st) (vid m : Nat) (e : Entry)
    (he : host st vid m = some e) (hp : e.port.permanentLearn = true)
    (hev : ∀ ev ∈ future, ev.takesDown e.port.number = false) :
    ∃ st', ctlRun cfg st future = some st' ∧ host st' vid m = some e := by
  obtain ⟨s0, h0, hi⟩ := ctlRun_cinv hw past (cinv_init cfg)
  rw [hst] at h0; cases h0
  clear hst
  induction future generalizing st with
  | nil => exact ⟨st, rfl, he⟩
  | cons ev evs ih =>
    have key : ∃ msgs st1, react cfg st ev = some (msgs, st1) ∧ CInv cfg st1 ∧ host st1 vid m = some e := by
      obtain ⟨msgs, st1, h1, h2⟩ := react_cinv hw hi ev
      refine ⟨msgs, st1, h1, h2, ?_⟩
      have hev0 := hev ev (by simp)
      cases ev with
      | packet now n vid' m' =>
        obtain ⟨msgs', st1', h1', ho⟩ := rcv_outcome hw hi now n vid' m'
        have h1 : rcvPacket cfg st now (cfg.port n) vid' m' = some (msgs, st1) := h1
        rw [h1] at h1'; cases h1'
        have hne : ¬ Permanent st vid' m' → ¬ (vid = vid' ∧ m' = m) := by
          rintro hnp ⟨rfl, rfl⟩; exact hnp ⟨e, he, hp⟩
        cases ho with
        | limit _ => exact he
        | perm _ => exact he
        | fresh _ => exact he
        | ban _ hnp _ _ v' hadd =>
          obtain ⟨_, _, hg, _⟩ := add_effect hw hi hadd
          rw [host_setVlan]
          split
          · rename_i hv
            show HostCache.cachedHost v' m = some e
            rw [hg, if_neg (fun hm => hne hnp ⟨hv, hm⟩), ← hv]; exact he
          · exact he
        | learn _ hnp _ _ v' hadd =>
          obtain ⟨_, _, hg, _⟩ := add_effect hw hi hadd
          rw [host_setVlan]
          split
          · rename_i hv
            show HostCache.cachedHost v' m = some e
            rw [hg, if_neg (fun hm => hne hnp ⟨hv, hm⟩), ← hv]; exact he
          · exact he
      | expire now vid' =>
        obtain ⟨ex, st', h1', _, _, h3, h4, _⟩ := sweep_effect hi now vid'
        have h1 : sweep cfg st now vid' = some (msgs, st1) := h1
        rw [h1] at h1'; cases h1'
        rw [h3, if_neg]
        · exact he
        · rintro ⟨rfl, hm⟩
          obtain ⟨x, hx, rfl⟩ := List.mem_map.1 hm
          obtain ⟨h5, h6, _⟩ := h4 x hx
          rw [he] at h5; cases h5
          rw [hp] at h6; cases h6
      | portDelete n =>
        obtain ⟨st', h1', _, h3, _⟩ := portDelete_effect hw hi n
        have h1 : portDelete cfg st n = some (msgs, st1) := h1
        rw [h1] at h1'; cases h1'
        rw [h3, if_neg]
        · exact he
        · rintro ⟨_, _, x, hx, hn⟩
          rw [he] at hx; cases hx
          simp [Ev.takesDown, hn] at hev0
      | portDown n => cases h1; exact he
      | portUpdate now n =>
        cases h1; exact he
      | coldStart now => simp [Ev.takesDown] at hev0
      | flowGone s => cases h1; exact he
      | srcRemoved vid' n m' =>
        obtain ⟨st', h1', _, h3, _⟩ := srcRemoved_effect hw hi vid' n m'
        rw [h1] at h1'; cases h1'
        rw [h3, if_neg]
        · exact he
        · rintro ⟨_, rfl, rfl, x, hx, hn⟩
          rw [he] at hx; cases hx
          simp [Ev.takesDown, hn] at hev0
      | dstRemoved now vid' m' =>
        obtain ⟨msgs', st', h1', h3, _⟩ := dstRemoved_effect (cfg := cfg) (st := st) now vid' m'
        rw [h1] at h1'; cases h1'
        unfold host at he ⊢
        rw [h3]; exact he
    obtain ⟨msgs, st1, h1, h2, h3⟩ := key
    obtain ⟨st', h4, h5⟩ := ih st1 h3 (fun ev hev' => hev ev (List.mem_cons_of_mem _ hev')) h2
    exact ⟨st', by simp [ctlRun, h1, h4], h5⟩

/-- A host is learned on port 3, then expiry runs much later and the host's MAC appears on ports 1 and 2. -/
example : ((ctlRun exCfg St.init [.packet 10 3 100 5]).map (fun st => (host st 100 5).map (·.port.permanentLearn)))
    = some (some true) ∧
    ((ctlRun exCfg St.init [.packet 10 3 100 5, .expire 100000 100, .packet 100001 1 100 5, .packet 200000 2 100 5]).map
      (fun st => (host st 100 5).map (fun e => (e.port.number, e.cacheTime)))) = some (some (3, 10)) := by decide

/-- The non-permanent contrast: on port 1 the same history ages the host out. -/
example : ((ctlRun exCfg St.init [.packet 10 1 100 5, .expire 100000 100]).map (fun st => host st 100 5))
    = some none := by decide

/-! ## C04 -/

/-- C04, VLAN part. The number of hosts learned on a VLAN never exceeds its configured maximum, over any history. -/
theorem vlan_limit_respected (cfg : Cfg) (hw : cfg.WF) (evs : List Ev) (st : St)
    (hst : ctlRun cfg St.init evs = some st) (vid : Nat) (hmax : cfg.vlanMax vid ≠ 0) :
    HostCache.hostsCount (st.vlan vid).hosts ≤ cfg.vlanMax vid := by
  have key : ∀ (evs : List Ev) (st st' : St), CInv cfg st → ctlRun cfg st evs = some st' →
      HostCache.hostsCount (st.vlan vid).hosts ≤ cfg.vlanMax vid →
      HostCache.hostsCount (st'.vlan vid).hosts ≤ cfg.vlanMax vid := by
    intro evs
    induction evs with
    | nil => intro st st' _ h hle; cases h; exact hle
    | cons ev evs ih =>
      intro st st' hi h hle
      obtain ⟨msgs, st1, h1, h2⟩ := react_cinv hw hi ev
      simp only [ctlRun, h1, Option.bind_eq_bind, Option.bind_some] at h
      refine ih st1 st' h2 h ?_
      have hrem : Removal cfg st st1 → HostCache.hostsCount (st1.vlan vid).hosts ≤ cfg.vlanMax vid := by
        intro hr
        refine Nat.le_trans (length_le_of_get (hi.inv vid) (h2.inv vid) ?_) hle
        intro x e hx
        have := hr.keep vid x e hx
        unfold host HostCache.cachedHost at this
        rw [this]; simp
      cases ev with
      | packet now n vid' m =>
        obtain ⟨msgs', st1', h1', ho⟩ := rcv_outcome hw hi now n vid' m
        have h1 : rcvPacket cfg st now (cfg.port n) vid' m = some (msgs, st1) := h1
        rw [h1] at h1'; cases h1'
        have hadd : ∀ v', ¬ LimitReached cfg st n vid' m → HostCache.addCacheHost (st.vlan vid').hosts m (cfg.port n) now = some v' →
            vid = vid' → HostCache.hostsCount v' ≤ cfg.vlanMax vid := by
          rintro v' hl hadd rfl
          obtain ⟨_, _, _, _, hc1, hc2⟩ := add_effect hw hi hadd
          by_cases hn : host st vid m = none
          · have : HostCache.hostsCount (st.vlan vid).hosts ≠ cfg.vlanMax vid := by
              intro hc; exact hl ⟨hn, Or.inr ⟨hmax, hc⟩⟩
            omega
          · rw [hc1 hn]; exact hle
        cases ho with
        | limit _ => exact hle
        | perm _ => exact hle
        | fresh _ => exact hle
        | ban hl _ _ _ v' ha =>
          simp only [St.setVlan, St.setPort]
          split
          · rename_i hv; exact hadd v' hl ha hv
          · exact hle
        | learn hl _ _ _ v' ha =>
          simp only [St.setVlan]
          split
          · rename_i hv; exact hadd v' hl ha hv
          · exact hle
      | expire now vid' =>
        obtain ⟨ex, s', h1', _, hr, _⟩ := sweep_effect hi now vid'
        have h1 : sweep cfg st now vid' = some (msgs, st1) := h1
        rw [h1] at h1'; cases h1'
        exact hrem hr
      | portDelete n =>
        obtain ⟨s', h1', hr, _⟩ := portDelete_effect hw hi n
        have h1 : portDelete cfg st n = some (msgs, st1) := h1
        rw [h1] at h1'; cases h1'
        exact hrem hr
      | portDown n => cases h1; exact hle
      | portUpdate now n => cases h1; exact hle
      | coldStart now => cases h1; exact Nat.zero_le _
      | flowGone s => cases h1; exact hle
      | srcRemoved vid' n m =>
        obtain ⟨s', h1', hr, _⟩ := srcRemoved_effect hw hi vid' n m
        rw [h1] at h1'; cases h1'
        exact hrem hr
      | dstRemoved now vid' m =>
        obtain ⟨m', s', h1', h3, _⟩ := dstRemoved_effect (cfg := cfg) (st := st) now vid' m
        rw [h1] at h1'; cases h1'
        rw [h3]; exact hle
  exact key evs St.init st (cinv_init cfg) hst (Nat.zero_le _)

/-- The VLAN takes 3 hosts and refuses the fourth. -/
example : ((ctlRun exCfg St.init [.packet 1 1 100 11, .packet 2 1 100 12, .packet 3 2 100 13, .packet 4 2 100 14]).map
    (fun st => (HostCache.hostsCount (st.vlan 100).hosts, (host st 100 14).isSome))) = some (3, false) := by decide

/-- C04 is false for ports: a known host that moves is not counted, so port 4, limited to 1 host, ends up with 2;
and because the check compares for equality, every further host is then accepted too. -/
theorem port_limit_defect :
    (exCfg.port 4).maxHosts = 1 ∧
    ((ctlRun exCfg St.init [.packet 1 4 100 11, .packet 2 1 100 12, .packet 1000 4 100 12, .packet 1001 4 100 13]).map
      (fun st => portHostsCount exCfg st (exCfg.port 4))) = some 3 := by decide

theorem sum_map_le {l : List Nat} {f g : Nat → Nat} (h : ∀ x ∈ l, f x ≤ g x) : (l.map f).sum ≤ (l.map g).sum := by
  induction l with
  | nil => simp
  | cons a l ih =>
    simp only [List.map_cons, List.sum_cons]
    have h1 := h a (by simp)
    have h2 := ih (fun x hx => h x (List.mem_cons_of_mem _ hx))
    omega

theorem sum_map_le_succ {l : List Nat} (hl : l.Nodup) {f g : Nat → Nat} (v : Nat) (h : ∀ x, x ≠ v → f x ≤ g x)
    (hv : f v ≤ g v + 1) : (l.map f).sum ≤ (l.map g).sum + 1 := by
  induction l with
  | nil => simp
  | cons a l ih =>
    simp only [List.map_cons, List.sum_cons]
    obtain ⟨hn, hl'⟩ := List.nodup_cons.1 hl
    by_cases ha : a = v
    · subst ha
      have := sum_map_le (l := l) (f := f) (g := g) (fun x hx => h x (by rintro rfl; exact hn hx))
      omega
    · have h1 := h a ha
      have h2 := ih hl'
      omega

theorem portHostsCount_eq (cfg : Cfg) (hw : cfg.WF) (st : St) (n : Nat) :
    portHostsCount cfg st (cfg.port n) =
      ((cfg.portVlans n).map (fun vid => (HostCache.onPort (st.vlan vid).hosts n).length)).sum := by
  unfold portHostsCount
  rw [hw.portNum]
  congr 1
  apply List.map_congr_left
  intro vid _
  rw [HostCache.cachedHostsCountOnPort_eq, HostCache.cachedHostsOnPort_eq, hw.portNum]

/-- C04, port part: the limit holds as long as no host moves between ports (`home` gives each host's port).
Missing: histories in which a host moves to the limited port, see `port_limit_defect`. -/
theorem port_limit_respected_partial (cfg : Cfg) (hw : cfg.WF) (evs : List Ev) (st : St)
    (hst : ctlRun cfg St.init evs = some st) (home : Nat → Nat → Nat)
    (hhome : ∀ now n vid m, Ev.packet now n vid m ∈ evs → n = home vid m)
    (n : Nat) (hnodup : (cfg.portVlans n).Nodup) (hmax : (cfg.port n).maxHosts ≠ 0) :
    portHostsCount cfg st (cfg.port n) ≤ (cfg.port n).maxHosts := by
  have key : ∀ (evs : List Ev) (st st' : St), CInv cfg st → ctlRun cfg st evs = some st' →
      (∀ now n vid m, Ev.packet now n vid m ∈ evs → n = home vid m) →
      (∀ vid m e, host st vid m = some e → e.port.number = home vid m) →
      portHostsCount cfg st (cfg.port n) ≤ (cfg.port n).maxHosts →
      portHostsCount cfg st' (cfg.port n) ≤ (cfg.port n).maxHosts := by
    intro evs
    induction evs with
    | nil => intro st st' _ h _ _ hle; cases h; exact hle
    | cons ev evs ih =>
      intro st st' hi h hhome hh hle
      obtain ⟨msgs, st1, h1, h2⟩ := react_cinv hw hi ev
      simp only [ctlRun, h1, Option.bind_eq_bind, Option.bind_some] at h
      have hhome' : ∀ now n vid m, Ev.packet now n vid m ∈ evs → n = home vid m :=
        fun now n vid m hm => hhome now n vid m (List.mem_cons_of_mem _ hm)
      have hrem : (∀ vid m e, host st1 vid m = some e → host st vid m = some e) →
          portHostsCount cfg st' (cfg.port n) ≤ (cfg.port n).maxHosts := by
        intro hk
        refine ih st1 st' h2 h hhome' (fun vid m e he => hh vid m e (hk vid m e he)) (Nat.le_trans ?_ hle)
        rw [portHostsCount_eq cfg hw, portHostsCount_eq cfg hw]
        apply sum_map_le
        intro vid _
        apply onPort_length_le (hi.inv vid) (h2.inv vid)
        intro x e hx hn
        exact ⟨e, hk vid x e hx, hn⟩
      cases ev with
      | packet now n' vid' m =>
        obtain ⟨msgs', st1', h1', ho⟩ := rcv_outcome hw hi now n' vid' m
        have h1 : rcvPacket cfg st now (cfg.port n') vid' m = some (msgs, st1) := h1
        rw [h1] at h1'; cases h1'
        have hn' := hhome now n' vid' m (by simp)
        have hadd : ∀ v', ¬ LimitReached cfg st n' vid' m →
            HostCache.addCacheHost (st.vlan vid').hosts m (cfg.port n') now = some v' →
            (∀ vid, (st1.vlan vid).hosts = if vid = vid' then v' else (st.vlan vid).hosts) →
            portHostsCount cfg st' (cfg.port n) ≤ (cfg.port n).maxHosts := by
          intro v' hl hadd hst1
          obtain ⟨hv', _, hg, _, _, _⟩ := add_effect hw hi hadd
          have hhost : ∀ vid x, host st1 vid x =
              if vid = vid' ∧ m = x then some ⟨m, cfg.port n', now⟩ else host st vid x := by
            intro vid x
            show HostCache.cachedHost (st1.vlan vid).hosts x = _
            rw [hst1]
            by_cases hv : vid = vid'
            · subst hv; rw [if_pos rfl, hg]; simp
            · simp [hv]; rfl
          refine ih st1 st' h2 h hhome' ?_ ?_
          · intro vid x e he
            rw [hhost] at he
            split at he
            · rename_i hc
              cases he
              obtain ⟨rfl, rfl⟩ := hc
              show (cfg.port n').number = _
              rw [hw.portNum]; exact hn'
            · exact hh vid x e he
          · rw [portHostsCount_eq cfg hw]
            rw [portHostsCount_eq cfg hw] at hle
            by_cases hnone : host st vid' m = none ∧ n' = n
            · obtain ⟨hnone, rfl⟩ := hnone
              have hne : portHostsCount cfg st (cfg.port n') ≠ (cfg.port n').maxHosts := by
                intro hc; exact hl ⟨hnone, Or.inl ⟨hmax, hc⟩⟩
              rw [portHostsCount_eq cfg hw] at hne
              have : ((cfg.portVlans n').map (fun vid => (HostCache.onPort (st1.vlan vid).hosts n').length)).sum ≤
                  ((cfg.portVlans n').map (fun vid => (HostCache.onPort (st.vlan vid).hosts n').length)).sum + 1 := by
                apply sum_map_le_succ hnodup vid'
                · intro vid hvid
                  rw [hst1, if_neg hvid]; exact Nat.le_refl _
                · apply onPort_length_add (hi.inv vid') (h2.inv vid') n' m
                  intro x e hx hn
                  have hx : host st1 vid' x = some e := hx
                  rw [hhost] at hx
                  split at hx
                  · rename_i hc; exact Or.inl hc.2.symm
                  · exact Or.inr ⟨e, hx, hn⟩
              omega
            · refine Nat.le_trans (sum_map_le ?_) hle
              intro vid _
              apply onPort_length_le (hi.inv vid) (h2.inv vid)
              intro x e hx hn
              have hx : host st1 vid x = some e := hx
              rw [hhost] at hx
              split at hx
              · rename_i hc
                cases hx
                obtain ⟨rfl, rfl⟩ := hc
                have hn : (cfg.port n').number = n := hn
                rw [hw.portNum] at hn
                cases he : host st vid m with
                | none => exact absurd ⟨he, hn⟩ hnone
                | some e' => exact ⟨e', he, by rw [hh vid m e' he, ← hn', hn]⟩
              · exact ⟨e, hx, hn⟩
        cases ho with
        | limit _ => exact hrem (fun _ _ _ h => h)
        | perm _ => exact hrem (fun _ _ _ h => h)
        | fresh _ => exact hrem (fun _ _ _ h => h)
        | ban hl _ _ _ v' ha =>
          refine hadd v' hl ha ?_
          intro vid
          simp only [St.setVlan, St.setPort]
          split <;> rfl
        | learn hl _ _ _ v' ha =>
          refine hadd v' hl ha ?_
          intro vid
          simp only [St.setVlan]
          split <;> rfl
      | expire now vid' =>
        obtain ⟨ex, s', h1', _, hr, _⟩ := sweep_effect hi now vid'
        have h1 : sweep cfg st now vid' = some (msgs, st1) := h1
        rw [h1] at h1'; cases h1'
        exact hrem hr.keep
      | portDelete n =>
        obtain ⟨s', h1', hr, _⟩ := portDelete_effect hw hi n
        have h1 : portDelete cfg st n = some (msgs, st1) := h1
        rw [h1] at h1'; cases h1'
        exact hrem hr.keep
      | portDown n => cases h1; exact hrem (fun _ _ _ h => h)
      | portUpdate now n => cases h1; exact hrem (fun _ _ _ h => h)
      | coldStart now =>
        cases h1
        refine hrem ?_
        intro vid m e he
        simp [host, coldStart, HostCache.resetCaches, HostCache.cachedHost] at he
      | flowGone s => cases h1; exact hrem (fun _ _ _ h => h)
      | srcRemoved vid' n m =>
        obtain ⟨s', h1', hr, _⟩ := srcRemoved_effect hw hi vid' n m
        rw [h1] at h1'; cases h1'
        exact hrem hr.keep
      | dstRemoved now vid' m =>
        obtain ⟨m', s', h1', h3, _⟩ := dstRemoved_effect (cfg := cfg) (st := st) now vid' m
        rw [h1] at h1'; cases h1'
        refine hrem ?_
        intro vid x e he
        unfold host at he ⊢
        rw [← h3]; exact he
  refine key evs St.init st (cinv_init cfg) hst hhome ?_ ?_
  · intro vid m e h; simp [host, St.init, HostCache.cachedHost] at h
  · rw [portHostsCount_eq cfg hw]
    have : ((cfg.portVlans n).map (fun vid => (HostCache.onPort (St.init.vlan vid).hosts n).length)).sum = 0 := by
      induction cfg.portVlans n with
      | nil => rfl
      | cons a l ih => simp [St.init, HostCache.onPort]
    omega

/-- Port 4 takes one host and refuses the second. -/
example : ((ctlRun exCfg St.init [.packet 1 4 100 11, .packet 2 4 100 12]).map
    (fun st => (portHostsCount exCfg st (exCfg.port 4), (host st 100 12).isSome))) = some (1, false) := by decide

/-! ## C05 -/

/-- C05. For a host that may expire: its source rule has a non-zero timeout (hard, or idle with the flow-removed
manager), at least the guard time, and either exactly the guard time or within the configured jitter of the
configured timeout; the destination rule installed with it never expires on its own or expires strictly later. -/
theorem timeouts_ordered_partial (cfg : Cfg) (p : Port) (m : Nat) (srcIdle srcHard dstIdle : Nat)
    (ht : learnHostTimeouts cfg p m = (srcIdle, srcHard, dstIdle))
    (hperm : p.permanentLearn = false) (hbase : cfg.learnTimeout ≠ 0) (hguard : 0 < cfg.guard)
    (hj : 0 < cfg.learnJitter) :
    ∃ t : Nat, ((srcIdle = t ∧ srcHard = 0) ∨ (srcIdle = 0 ∧ srcHard = t)) ∧
      cfg.guard ≤ t ∧
      (t = cfg.guard ∨ (cfg.learnTimeout ≤ t + cfg.learnJitter ∧ t ≤ cfg.learnTimeout + cfg.learnJitter)) ∧
      (dstIdle = 0 ∨ t < dstIdle) := by
  have hjit : ∀ t, t = jitterLearnTimeout cfg cfg.learnTimeout p m → cfg.guard ≤ t ∧
      (t = cfg.guard ∨ (cfg.learnTimeout ≤ t + cfg.learnJitter ∧ t ≤ cfg.learnTimeout + cfg.learnJitter)) := by
    intro t ht
    unfold jitterLearnTimeout at ht
    rw [if_neg (by simp [hperm]), if_neg hbase] at ht
    simp only at ht
    have h1 := Int.emod_nonneg (cfg.macHash m) (b := (cfg.learnJitter : Int)) (by omega)
    have h2 := Int.emod_lt_of_pos (cfg.macHash m) (b := (cfg.learnJitter : Int)) (by omega)
    omega
  unfold learnHostTimeouts at ht
  simp only at ht
  split at ht
  · simp only [Prod.mk.injEq] at ht
    obtain ⟨rfl, rfl, rfl⟩ := ht
    have := hjit _ rfl
    exact ⟨_, Or.inl ⟨rfl, rfl⟩, this.1, this.2, Or.inr (by omega)⟩
  · simp only [Prod.mk.injEq] at ht
    obtain ⟨rfl, rfl, rfl⟩ := ht
    have := hjit _ rfl
    refine ⟨_, Or.inr ⟨rfl, rfl⟩, this.1, this.2, ?_⟩
    split
    · right; omega
    · left; rfl

/-- C05, last clause. A source rule never expires exactly when the port is permanent-learn or the configured
timeout is zero. -/
theorem never_expires_iff (cfg : Cfg) (p : Port) (m : Nat) (hguard : 0 < cfg.guard) :
    ((learnHostTimeouts cfg p m).1 = 0 ∧ (learnHostTimeouts cfg p m).2.1 = 0) ↔
      (p.permanentLearn = true ∨ cfg.learnTimeout = 0) := by
  have hz : jitterLearnTimeout cfg cfg.learnTimeout p m = 0 ↔ (p.permanentLearn = true ∨ cfg.learnTimeout = 0) := by
    unfold jitterLearnTimeout
    by_cases h1 : p.permanentLearn = true
    · simp [h1]
    · by_cases h2 : cfg.learnTimeout = 0
      · simp [h2]
      · rw [if_neg h1, if_neg h2]
        refine ⟨fun h => ?_, fun h => by rcases h with h | h <;> contradiction⟩
        have := Nat.le_max_right
          (((cfg.learnTimeout : Int) - cfg.learnJitter + cfg.macHash m % (cfg.learnJitter : Int)).natAbs) cfg.guard
        rw [h] at this
        omega
  unfold learnHostTimeouts
  simp only
  split
  · simp [hz]
  · simp [hz]

example : learnHostTimeouts exCfg (exCfg.port 1) 5 = (0, 254, 404) ∧ 0 < exCfg.guard ∧ 0 < exCfg.learnJitter := by
  decide

/-- C05 fails for permanently learned hosts: the source rule never expires but the destination rule does. -/
theorem permanent_dst_expires_defect :
    learnHostTimeouts exCfg (exCfg.port 3) 5 = (0, 0, 150) := by decide

/-- The destination timeout may not fit the 16 bits it has in a flow mod, for a configuration the parser accepts
(`timeout` 65535, all else default: guard 32767, jitter 767). -/
theorem dst_timeout_overflow_defect :
    (learnHostTimeouts { exCfg with learnTimeout := 65535, guard := 32767, learnJitter := 767 } (exCfg.port 1) 5).2.2
      > 65535 := by decide

/-! ## C06 -/

/-- C06, host table. Handling a packet never raises. It is learned - its host is then known on the packet's port
with the packet's time, and no other host changes - unless a limit is reached, or the host is permanently
learned, or it was seen there within the guard time; then nothing changes. -/
theorem learning_reflects_last_sighting (cfg : Cfg) (hw : cfg.WF) (past : List Ev) (st : St)
    (hst : ctlRun cfg St.init past = some st) (now : Int) (n vid m : Nat) :
    ∃ msgs st', react cfg st (.packet now n vid m) = some (msgs, st') ∧
      (LimitReached cfg st n vid m ∨ Permanent st vid m ∨ Fresh cfg st now n vid m → st' = st) ∧
      (¬ (LimitReached cfg st n vid m ∨ Permanent st vid m ∨ Fresh cfg st now n vid m) →
        host st' vid m = some ⟨m, cfg.port n, now⟩ ∧
        ∀ vid' m', (vid', m') ≠ (vid, m) → host st' vid' m' = host st vid' m') := by
  obtain ⟨s0, h0, hi⟩ := ctlRun_cinv hw past (cinv_init cfg)
  rw [hst] at h0; cases h0
  obtain ⟨msgs, st', h1, ho⟩ := rcv_outcome hw hi now n vid m
  refine ⟨msgs, st', h1, ?_, ?_⟩
  · intro h
    cases ho with
    | limit _ => rfl
    | perm _ => rfl
    | fresh _ => rfl
    | ban a b c _ => rcases h with h | h | h <;> contradiction
    | learn a b c _ => rcases h with h | h | h <;> contradiction
  · intro h
    have hset : ∀ (st1 : St) (v' : Vlan) le, (∀ a b, host st1 a b = host st a b) →
        HostCache.addCacheHost (st.vlan vid).hosts m (cfg.port n) now = some v' →
        host (st1.setVlan vid ⟨v', le⟩) vid m = some ⟨m, cfg.port n, now⟩ ∧
        ∀ vid' m', (vid', m') ≠ (vid, m) → host (st1.setVlan vid ⟨v', le⟩) vid' m' = host st vid' m' := by
      intro st1 v' le hs hadd
      obtain ⟨_, _, hg, _⟩ := add_effect hw hi hadd
      constructor
      · rw [host_setVlan, if_pos rfl]
        show HostCache.cachedHost v' m = _
        rw [hg, if_pos rfl]
      · intro vid' m' hne
        rw [host_setVlan]
        split
        · rename_i hv
          show HostCache.cachedHost v' m' = _
          rw [hg, if_neg, hv]
          rintro rfl; exact hne (by rw [hv])
        · exact hs _ _
    cases ho with
    | limit a => exact absurd (Or.inl a) h
    | perm _ e he hp => exact absurd (Or.inr (Or.inl ⟨e, he, hp⟩)) h
    | fresh _ _ a => exact absurd (Or.inr (Or.inr a)) h
    | ban _ _ _ _ v' hadd => exact hset _ v' _ (fun _ _ => rfl) hadd
    | learn _ _ _ _ v' hadd => exact hset _ v' _ (fun _ _ => rfl) hadd

/-- A host moves from port 1 to port 2, then is seen again within the guard time. -/
example : ((ctlRun exCfg St.init [.portUpdate 0 1, .portUpdate 0 2, .packet 1 1 100 5, .packet 3 2 100 5, .packet 4 2 100 5]).map
    (fun st => (host st 100 5).map (fun e => (e.port.number, e.cacheTime)))) = some (some (2, 3)) := by decide

end Faucet.Learn
