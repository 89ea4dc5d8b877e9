import Verif.L2.ReloadProps
import Verif.L2.DeliveryExamples

/-! # One standalone switch, reloads: cases that meet the hypotheses, and defects -/

namespace Faucet.L2.Ex
open Faucet.OF

/-- Changed sections. -/
def secs (ps vs : List Nat) : Sections := ⟨fun n => !ps.contains n, fun n => !vs.contains n⟩

/-- A reload in which `lag` happens to bundles. -/
def playR (c c' : Cfg) (sec : Sections) (r : Ctl × List OfMsg) (lag : Nat → Nat → LagChange := fun _ _ => none) :
    Option (Ctl × List OfMsg) :=
  (reload c c' sec (changes c c' sec) lag r.1).bind (fun x => (FlowReorder.reorder id true x.1).map (fun out => (x.2, r.2 ++ out)))

theorem same_refl (a : Changes) : a.Same a := ⟨fun _ => Iff.rfl, fun _ => Iff.rfl, fun _ => Iff.rfl, fun _ => Iff.rfl, fun _ => Iff.rfl⟩

theorem playedR {c c' : Cfg} {sec : Sections} {r : Ctl × List OfMsg} {lag : Nat → Nat → LagChange} (h : (playR c c' sec r lag).isSome) :
    playR c c' sec r lag = some ((playR c c' sec r lag).getD (Ctl.init, [])) := by
  obtain ⟨x, hx⟩ := Option.isSome_iff_exists.1 h
  rw [hx]; rfl

theorem swOf_append (x : Ctl) (r : Ctl × List OfMsg) (out : List OfMsg) : swOf (x, r.2 ++ out) = (swOf r).execAll out := by
  simp [swOf, Switch.execAll]

theorem reloaded {c c' : Cfg} {sec : Sections} {r r' : Ctl × List OfMsg} {lag : Nat → Nat → LagChange} (hp : playR c c' sec r lag = some r')
    (ha : allChanged c c' sec = false) {seen : PacketIn → Prop} : Reloaded c c' sec ⟨r.1, swOf r, seen⟩ ⟨r'.1, swOf r', seen⟩ := by
  unfold playR at hp
  obtain ⟨x, hx, hp⟩ := Option.bind_eq_some_iff.1 hp
  obtain ⟨out, ho, rfl⟩ := Option.map_eq_some_iff.1 hp
  rw [swOf_append]
  exact ⟨changes c c' sec, lag, x.1, x.2, id, true, out, ha, same_refl _, hx, fun l => List.Perm.refl l, ho, rfl⟩

theorem runR_start {c : Cfg} (hw : c.WF) (hb : c.Basic) {now : Int} {up : List Nat} {lag : Nat → LagChange} {r : Ctl × List OfMsg}
    (h : play c (Ctl.init, []) (.connect now up lag) = some r) :
    RunR c ⟨r.1, swOf r, fun _ => False⟩ (fun i => up.contains i) (fun _ => False) := by
  unfold play at h
  obtain ⟨x, hx, h⟩ := Option.bind_eq_some_iff.1 h
  obtain ⟨out, ho, rfl⟩ := Option.map_eq_some_iff.1 h
  exact .start (sh := id) (bar := true) hw hb (fun l => List.Perm.refl l) hx ho

theorem runR_event {c : Cfg} {r r' : Ctl × List OfMsg} {ev : Ev} {seen q : PacketIn → Prop} {u : Nat → Bool}
    (h : RunR c ⟨r.1, swOf r, seen⟩ u q) (he : ∀ now k, ev = .packetIn now k → q k) (hp : play c r ev = some r') :
    RunR c ⟨r'.1, swOf r', seen⟩ (ev.upAfter u) q := by
  unfold play at hp
  obtain ⟨x, hx, hp⟩ := Option.bind_eq_some_iff.1 hp
  obtain ⟨out, ho, rfl⟩ := Option.map_eq_some_iff.1 hp
  rw [swOf_append]
  exact RunR.event (sh := id) (bar := true) h (fun l => List.Perm.refl l) he hx ho

theorem runR_learn {c : Cfg} {r r' : Ctl × List OfMsg} {seen q : PacketIn → Prop} {u : Nat → Bool}
    (h : RunR c ⟨r.1, swOf r, seen⟩ u q) {p : LPort} (hp : p ∈ c.ports) {k : Pkt} (hk : Wire k)
    (hpl : Plain c k) (hin : k.hdr fInPort = some p.number) {l : List (Nat × List (Nat × Nat))} (hs : send r k = some l)
    {tags : List (Nat × Nat)} (ht : (portController, tags) ∈ l) {src : Nat} (hsrc : k.hdr fEthSrc = some src) {now : Int}
    (hev : play c r (.packetIn now ⟨p.number, tags, src⟩) = some r') :
    ∃ seen' q', RunR c ⟨r'.1, swOf r', seen'⟩ u q' := by
  obtain ⟨es, h1, h2⟩ := send_proc hs
  obtain ⟨e, he, hpc, htg⟩ := emit_of_outs (es := es) (n := portController) (tags := tags) (by rw [h2]; exact ht)
  have hgood := isolation_across_reloads_partial h hp hk hin h1 e he
  have hr := RunR.packet h hk hpl h1
  have hpin : Emit.toPacketIn e = ⟨p.number, tags, src⟩ := by
    unfold Emit.toPacketIn
    rw [htg, hgood.1 _ (by decide), hgood.1 _ (by decide), hin, hsrc]
    rfl
  exact ⟨_, _, runR_event hr (fun now k hk => by cases hk; exact Or.inr ⟨e, he, hpc, hpin.symm⟩) hev⟩

theorem runR_reload {c c' : Cfg} {sec : Sections} {r r' : Ctl × List OfMsg} {seen q : PacketIn → Prop} {u : Nat → Bool}
    {lag : Nat → Nat → LagChange} (h : RunR c ⟨r.1, swOf r, seen⟩ u q) (hr : Reloadable c c' sec) (hrun : r.1.running = true)
    (hk : ∀ p ∈ c'.ports, (∀ p0 ∈ c.ports, p0.number ≠ p.number) → u p.number = true → r.1.known p.number = true)
    (hp : playR c c' sec r lag = some r') : RunR c' ⟨r'.1, swOf r', seen⟩ u (fun k => q k ∧ SeenOk c' k) := by
  unfold playR at hp
  obtain ⟨x, hx, hp⟩ := Option.bind_eq_some_iff.1 hp
  obtain ⟨out, ho, rfl⟩ := Option.map_eq_some_iff.1 hp
  rw [swOf_append]
  exact RunR.reload (s := ⟨r.1, swOf r, seen⟩) (sh := id) (bar := true) h hr (same_refl _) hrun hk hx (fun l => List.Perm.refl l) ho

/-! ## Ports move between VLANs

Ports 1 and 5 are in VLAN 100, ports 2 and 6 in VLAN 200, port 3 in both, tagged. Port 1 is mirrored to port 4. In the new
configuration, port 2 is gone, port 6 is in a new VLAN 300, and port 7, that came up before, is in VLAN 200. -/

def ep2 : LPort where
  number := 2
  native := some 200
  maxHosts := 0
def ep4 : LPort where
  number := 4
  outputOnly := true
  maxHosts := 0
def ep6 (vid : Nat) : LPort where
  number := 6
  native := some vid
  maxHosts := 0
def ep7 : LPort where
  number := 7
  native := some 200
  maxHosts := 0

def confE (comb : Bool) : Cfg where
  ports := [dp1, ep2, dp3, ep4, dp5, ep6 200]
  vlans := [{ vid := 100, maxHosts := 0 }, { vid := 200, maxHosts := 0 }]
  combinatorial := comb

def confE' (comb : Bool) : Cfg where
  ports := [dp1, dp3, ep4, dp5, ep6 300, ep7]
  vlans := [{ vid := 100, maxHosts := 0 }, { vid := 200, maxHosts := 0 }, { vid := 300, maxHosts := 0 }]
  combinatorial := comb

theorem confE_wf (b : Bool) : (confE b).WF := by
  refine ⟨by cases b <;> decide, by cases b <;> decide, by cases b <;> decide, by cases b <;> decide, ?_, ?_, mirrors_all (by cases b <;> decide)⟩
  · intro p hp vid h
    simp only [confE, List.mem_cons, List.not_mem_nil, or_false] at hp
    rcases hp with rfl | rfl | rfl | rfl | rfl | rfl <;> simp [dp1, dp3, dp5, ep2, ep4, ep6] at h <;> simp [confE] <;> omega
  · intro p hp vid h
    simp only [confE, List.mem_cons, List.not_mem_nil, or_false] at hp
    rcases hp with rfl | rfl | rfl | rfl | rfl | rfl <;> simp [dp1, dp3, dp5, ep2, ep4, ep6] at h ⊢

theorem confE'_wf (b : Bool) : (confE' b).WF := by
  refine ⟨by cases b <;> decide, by cases b <;> decide, by cases b <;> decide, by cases b <;> decide, ?_, ?_, mirrors_all (by cases b <;> decide)⟩
  · intro p hp vid h
    simp only [confE', List.mem_cons, List.not_mem_nil, or_false] at hp
    rcases hp with rfl | rfl | rfl | rfl | rfl | rfl <;> simp [dp1, dp3, dp5, ep4, ep6, ep7] at h <;> simp [confE'] <;> omega
  · intro p hp vid h
    simp only [confE', List.mem_cons, List.not_mem_nil, or_false] at hp
    rcases hp with rfl | rfl | rfl | rfl | rfl | rfl <;> simp [dp1, dp3, dp5, ep4, ep6, ep7] at h ⊢

theorem confE_basic (b : Bool) : (confE b).Basic := by
  cases b <;> exact ⟨by decide, by decide, by decide, by decide, by decide, by decide, by decide, by decide, by decide, by decide⟩

theorem confE'_basic (b : Bool) : (confE' b).Basic := by
  cases b <;> exact ⟨by decide, by decide, by decide, by decide, by decide, by decide, by decide, by decide, by decide, by decide⟩

theorem confE_reloadable (b : Bool) : Reloadable (confE b) (confE' b) (secs [6] []) where
  wf := confE'_wf b
  basic := confE'_basic b
  order := by
    constructor <;> cases b <;> simp [Cfg.InOrder, confE, confE', dp1, dp3, dp5, ep2, ep4, ep6, ep7]
  dp := by cases b <;> rfl
  sections := by
    constructor
    · cases b <;> simp [confE, confE']
    · intro p hp p' hp' hn hs
      simp only [confE, confE', List.mem_cons, List.not_mem_nil, or_false] at hp hp'
      rcases hp with rfl | rfl | rfl | rfl | rfl | rfl <;> rcases hp' with rfl | rfl | rfl | rfl | rfl | rfl <;>
        first
          | exact absurd hn (by decide)
          | exact Or.inl rfl
          | exact absurd hs (by decide)
  warm := by cases b <;> decide
  stays := by
    intro p hp p' hp' hn vid h1 h2
    simp only [confE, confE', List.mem_cons, List.not_mem_nil, or_false] at hp hp'
    rcases hp with rfl | rfl | rfl | rfl | rfl | rfl <;> rcases hp' with rfl | rfl | rfl | rfl | rfl | rfl <;>
      first
        | exact absurd hn (by decide)
        | exact Or.inr ⟨Iff.rfl, rfl⟩
        | (rcases h1 with h1 | h1 <;> rcases h2 with h2 | h2 <;> simp [ep6] at h1 h2 <;> omega)
  gateways := by cases b <;> simp [confE, confE']
  limits := fun _ => by cases b <;> exact ⟨by decide, by decide⟩

def upE : List Nat := [1, 2, 3, 4, 5, 6]

def bootE (b : Bool) : Ctl × List OfMsg := (play (confE b) (Ctl.init, []) (.connect 1000 upE (fun _ => none))).getD (Ctl.init, [])
/-- FAUCET learns a host of VLAN 100 and one of VLAN 200 on port 3. -/
def learnE1 (b : Bool) : Ctl × List OfMsg := (play (confE b) (bootE b) (.packetIn 1001 (pin 3 [(100, 5)] 0x20))).getD (Ctl.init, [])
def learnE (b : Bool) : Ctl × List OfMsg := (play (confE b) (learnE1 b) (.packetIn 1002 (pin 3 [(200, 5)] 0x21))).getD (Ctl.init, [])
def upE7 (b : Bool) : Ctl × List OfMsg := (play (confE b) (learnE b) (.portUp 1003 7 none)).getD (Ctl.init, [])
def reE (b : Bool) : Ctl × List OfMsg := (playR (confE b) (confE' b) (secs [6] []) (upE7 b)).getD (Ctl.init, [])

theorem upE7_run (b : Bool) : ∃ seen u q, RunR (confE b) ⟨(upE7 b).1, swOf (upE7 b), seen⟩ u q ∧ ∀ i ∈ [1, 2, 3, 4, 5, 6, 7], u i = true := by
  have h0 := runR_start (confE_wf b) (confE_basic b) (up := upE) (r := bootE b) (played (by cases b <;> decide +kernel))
  obtain ⟨s1, q1, h1⟩ := runR_learn h0 (p := dp3) (by simp [confE])
    (k := pkt 3 0x20 0x30 [(100, 5)]) (wire_pkt (by decide)) (plain_pkt (by decide)) rfl
    (l := [(portController, [(100, 5)]), (1, []), (4, []), (5, [])]) (by cases b <;> decide +kernel) (by simp) rfl
    (r' := learnE1 b) (played (by cases b <;> decide +kernel))
  obtain ⟨s2, q2, h2⟩ := runR_learn h1 (p := dp3) (by simp [confE])
    (k := pkt 3 0x21 0x30 [(200, 5)]) (wire_pkt (by decide)) (plain_pkt (by decide)) rfl
    (l := [(portController, [(200, 5)]), (2, []), (6, [])]) (by cases b <;> decide +kernel) (by simp) rfl
    (r' := learnE b) (played (by cases b <;> decide +kernel))
  exact ⟨_, _, _, runR_event (ev := .portUp 1003 7 none) (r' := upE7 b) h2 (fun _ _ h => by cases h) (played (by cases b <;> decide +kernel)),
    by simp [Ev.upAfter, upE]⟩

theorem reE_run (b : Bool) : ∃ seen u q, RunR (confE' b) ⟨(reE b).1, swOf (reE b), seen⟩ u q ∧ ∀ i ∈ [1, 2, 3, 4, 5, 6, 7], u i = true := by
  obtain ⟨s, u, q, h, hu⟩ := upE7_run b
  exact ⟨s, u, _, runR_reload h (confE_reloadable b) (by cases b <;> decide +kernel)
    (fun p hp _ _ => (by cases b <;> decide +kernel : ∀ p ∈ (confE' b).ports, (upE7 b).1.known p.number = true) p hp)
    (playedR (by cases b <;> decide +kernel)), hu⟩

/-- After the reload ports 3, 6 and 7 are in the VLANs of the new configuration, port 2 is silent. -/
example (b : Bool) : send (reE b) (pkt 7 0x30 0x21 []) = some [(portController, [(200, 0)]), (3, [(200, 0)])] ∧
    send (reE b) (pkt 6 0x30 0x21 []) = some [(portController, [(300, 0)])] ∧ send (reE b) (pkt 2 0x30 0x21 []) = some [] ∧
    send (reE b) (pkt 5 0x30 0x20 []) = some [(portController, [(100, 0)]), (3, [(100, 0)])] := by
  refine ⟨?_, ?_, ?_, ?_⟩ <;> cases b <;> decide +kernel

theorem confE'_unlimited (b : Bool) : (confE' b).Unlimited := by cases b <;> exact ⟨by decide, by decide⟩

theorem ordE5 (b : Bool) (dst : Nat) (hd : dst < 0x1000000) : Ordinary (confE' b) dp5 (pkt 5 0x30 dst []) 100 [] 0x30 dst where
  port := rfl
  from_ := rfl
  to_ := rfl
  notBroadcast := by decide
  notGateway := by cases b <;> decide
  mac := by omega
  notReserved := by omega
  type := by simp [pkt, fEthType, fInPort, fEthSrc, fEthDst]
  wire := wire_pkt (by decide)
  carried := .untagged rfl

theorem keptE3 (b : Bool) : PortKept (confE b) (confE' b) (secs [6] []) dp3 :=
  ⟨by simp [confE], by simp [confE'], rfl, by
    intro v hv hin
    simp only [confE', List.mem_cons, List.not_mem_nil, or_false] at hv
    rcases hv with rfl | rfl | rfl
    · exact ⟨⟨_, by simp [confE], rfl⟩, rfl⟩
    · exact ⟨⟨{ vid := 200, maxHosts := 0 }, by simp [confE], rfl⟩, rfl⟩
    · rcases hin with h | h <;> simp [dp3] at h⟩

theorem keptE100 (b : Bool) : VlanKept (confE b) (confE' b) (secs [6] []) 100 := by
  refine ⟨⟨_, by simp [confE]; exact Or.inl rfl, rfl⟩, ⟨_, by simp [confE']; exact Or.inl rfl, rfl⟩, ?_⟩
  rintro (h | ⟨n, h⟩)
  · cases h
  · apply h
    simp [Cfg.Member, confE, confE', LPort.In, dp1, dp3, dp5, ep2, ep4, ep6, ep7]

/-- The reload does not raise, keeps the host of VLAN 100 and its rules, and a packet for it leaves through its port only. The
host of VLAN 200, which ports join and leave, is forgotten; packets for it are flooded. -/
theorem reloadE_case {b : Bool} {r r' : Ctl × List OfMsg} {seen q : PacketIn → Prop} {u : Nat → Bool}
    (h : RunR (confE b) ⟨r.1, swOf r, seen⟩ u q) (hrun : r.1.running = true) (hkn : r.1.known 7 = true) (hu : Takes u dp5)
    (hp : playR (confE b) (confE' b) (secs [6] []) r = some r')
    (hh : (Learn.host r.1.learn 100 0x20).map (fun e => e.port.number) = some 3) {l : List (Nat × List (Nat × Nat))}
    (hl : send r' (pkt 5 0x30 0x20 []) = some l) :
    ∃ seen' q', RunR (confE' b) ⟨r'.1, swOf r', seen'⟩ u q' ∧ (Learn.host r'.1.learn 100 0x20).map (fun e => e.port.number) = some 3 ∧
      ∃ es, Proc (swOf r') 0 (pkt 5 0x30 0x20 []) es ∧ GetsOne dp3 (pkt 5 0x30 0x20 []) 100 [] es ∧ OF.outs es = l := by
  have h' := runR_reload h (confE_reloadable b) hrun (by
    intro p hp hno _
    simp only [confE', List.mem_cons, List.not_mem_nil, or_false] at hp
    rcases hp with rfl | rfl | rfl | rfl | rfl | rfl
    · exact absurd rfl (hno dp1 (by simp [confE]))
    · exact absurd rfl (hno dp3 (by simp [confE]))
    · exact absurd rfl (hno ep4 (by simp [confE]))
    · exact absurd rfl (hno dp5 (by simp [confE]))
    · exact absurd rfl (hno (ep6 200) (by simp [confE]))
    · exact hkn) hp
  have hkeep : (Learn.host r'.1.learn 100 0x20).map (fun e => e.port.number) = some 3 := by
    unfold playR at hp
    obtain ⟨x, hx, hp⟩ := Option.bind_eq_some_iff.1 hp
    obtain ⟨out, ho, rfl⟩ := Option.map_eq_some_iff.1 hp
    obtain ⟨e, he, hn⟩ := Option.map_eq_some_iff.1 hh
    have := (kept_hosts_partial h (confE_reloadable b) (same_refl _) hx).2 dp3 100 (keptE3 b) (keptE100 b) 0x20 e he hn
    rw [show Learn.host x.2.learn 100 0x20 = _ from this]
    exact congrArg some hn
  obtain ⟨es, h1, h2⟩ := send_proc hl
  have hk : Sys.Knows ⟨r'.1, swOf r', seen⟩ 100 0x20 dp3 := by
    obtain ⟨e, he, hn⟩ := Option.map_eq_some_iff.1 hkeep
    exact ⟨e, he, hn⟩
  exact ⟨_, _, h', hkeep, es, h1, known_host_across_reloads_partial h'
    (unlimited_across_reloads_never_bans_partial h' (confE'_unlimited b)) (by simp [confE']) hu (ordE5 b 0x20 (by decide)) h1
    (by simp [confE']) hk (by simp [dp3, dp5]), h2⟩

example (b : Bool) : ∃ seen u q, RunR (confE' b) ⟨(reE b).1, swOf (reE b), seen⟩ u q ∧
    (Learn.host (reE b).1.learn 100 0x20).map (fun e => e.port.number) = some 3 ∧ Learn.host (reE b).1.learn 200 0x21 = none ∧
    ∃ es, Proc (swOf (reE b)) 0 (pkt 5 0x30 0x20 []) es ∧ GetsOne dp3 (pkt 5 0x30 0x20 []) 100 [] es ∧
      OF.outs es = [(portController, [(100, 0)]), (3, [(100, 0)])] := by
  obtain ⟨s, u, q, h, hu⟩ := upE7_run b
  have hnone : (Learn.host (reE b).1.learn 200 0x21).isNone = true := by cases b <;> decide +kernel
  obtain ⟨s', q', h', h1, h2⟩ := reloadE_case h (by cases b <;> decide +kernel) (by cases b <;> decide +kernel)
    ⟨rfl, rfl, hu 5 (by simp)⟩ (r' := reE b) (playedR (by cases b <;> decide +kernel)) (by cases b <;> decide +kernel)
    (l := [(portController, [(100, 0)]), (3, [(100, 0)])]) (by cases b <;> decide +kernel)
  exact ⟨s', u, q', h', h1, by simpa using hnone, h2⟩

/-- The rules for that host, before and after. -/
theorem rulesE_case {b : Bool} {r : Ctl × List OfMsg} {seen q : PacketIn → Prop} {u : Nat → Bool} {sl : Slot} {x : Body}
    (h : RunR (confE b) ⟨r.1, swOf r, seen⟩ u q) {out : List OfMsg} {y : List OfMsg × Ctl}
    (hy : reload (confE b) (confE' b) (secs [6] []) (changes (confE b) (confE' b) (secs [6] [])) (fun _ _ => none) r.1 = some y)
    (ho : FlowReorder.reorder id true y.1 = some out)
    (hsl : sl = Learn.srcSlot (confE b).learn 3 100 0x20 ∨ (sl = Learn.dstSlot (confE b).learn 100 0x20 ∧ ∀ n, x.outputsTo n = true → n = 3))
    (hx : (swOf r).flows sl = some x) : ((swOf r).execAll out).flows sl = some x := by
  obtain ⟨h1, h2⟩ := kept_host_rules_partial h (confE_reloadable b) (same_refl _) hy (fun l => List.Perm.refl l) ho (keptE100 b) 0x20 (b := x)
  rcases hsl with rfl | ⟨rfl, hs⟩
  · exact h1 dp3 (keptE3 b) hx
  · exact h2 (fun n hn => ⟨dp3, keptE3 b, (hs n hn).symm⟩) hx

example (b : Bool) : ((swOf (upE7 b)).flows (Learn.srcSlot (confE b).learn 3 100 0x20)).isSome = true ∧
    ((swOf (reE b)).flows (Learn.srcSlot (confE b).learn 3 100 0x20)).isSome = true ∧
    ((swOf (upE7 b)).flows (Learn.dstSlot (confE b).learn 100 0x20)).map (fun x => x.inst) =
      some [.apply [.output 3]] ∧
    ((swOf (reE b)).flows (Learn.dstSlot (confE b).learn 100 0x20)).isSome = true := by
  refine ⟨?_, ?_, ?_, ?_⟩ <;> cases b <;> decide +kernel

/-- Reading the same configuration again changes nothing. -/
example (b : Bool) : ∃ ctl, reload (confE b) (confE b) (secs [] []) (changes (confE b) (confE b) (secs [] [])) (fun _ _ => none) (upE7 b).1 = some ([], ctl) ∧
    (ctl.dyn 3) = (upE7 b).1.dyn 3 ∧ Learn.host ctl.learn 200 0x21 = Learn.host (upE7 b).1.learn 200 0x21 := by
  generalize (upE7 b).1 = s
  obtain ⟨ctl, h1, -, -, h2, h3⟩ := same_config_is_free (confE_wf b) (sec := secs [] []) (fun _ _ => rfl) (fun _ _ => rfl) (same_refl _) (fun _ _ => none) s
  exact ⟨ctl, h1, h2 dp3 (by simp [confE]), h3 { vid := 200, maxHosts := 0 } (by simp [confE]) _⟩

/-! ## Defects -/

theorem not_allowed {c : Cfg} {p : LPort} {k : Pkt} {e : Emit} {n : Nat} {tags : List (Nat × Nat)} (hp : e.port = n) (ht : e.tags = tags)
    (hn : n ≠ portController)
    (h : ∀ vid inner, Carried p k.tags vid inner → ∀ q ∈ c.ports, ¬ (q.In vid ∧ n ∈ q.mirror) ∧ ¬ (q.number = n ∧ RightTags q vid inner tags)) :
    ¬ Allowed c p k e := by
  intro ha
  cases ha with
  | control h => exact hn (hp ▸ h)
  | controller h => exact hn (hp ▸ h)
  | mirror hc hq hin hm => exact (h _ _ hc _ hq).1 ⟨hin, hp ▸ hm⟩
  | member hc hq hn hr => exact (h _ _ hc _ hq).2 ⟨hn.symm.trans hp, ht ▸ hr⟩

/-- FAUCET handles an event, and the switch does what it is told. -/
def Handled (c : Cfg) (s : Sys) (ev : Ev) (s' : Sys) : Prop :=
  ∃ (ms : List OfMsg) (ctl : Ctl) (out : List OfMsg), c.react s.ctl ev = some (ms, ctl) ∧ FlowReorder.reorder id true ms = some out ∧
    s' = ⟨ctl, s.sw.execAll out, s.seen⟩

theorem handled {c : Cfg} {r r' : Ctl × List OfMsg} {ev : Ev} (hp : play c r ev = some r') {seen : PacketIn → Prop} :
    Handled c ⟨r.1, swOf r, seen⟩ ev ⟨r'.1, swOf r', seen⟩ := by
  unfold play at hp
  obtain ⟨x, hx, hp⟩ := Option.bind_eq_some_iff.1 hp
  obtain ⟨out, ho, rfl⟩ := Option.map_eq_some_iff.1 hp
  rw [swOf_append]
  exact ⟨x.1, x.2, out, hx, ho, rfl⟩

/-! ### A bundle port that leaves a VLAN -/

def lagP (vids : List Nat) : LPort where
  number := 1
  tagged := vids
  lacp := 1

def confL (vids : List Nat) : Cfg where
  ports := [lagP vids, { number := 2, native := some 200 }, { number := 3, native := some 100 }]
  vlans := [{ vid := 100 }, { vid := 200 }]

def lag0 : Ctl × List OfMsg := (play (confL [100, 200]) (Ctl.init, []) (.connect 1000 [1, 2, 3] (fun _ => some (false, false)))).getD (Ctl.init, [])
def lag1 : Ctl × List OfMsg := (play (confL [100, 200]) lag0 (.lag 1 true true)).getD (Ctl.init, [])
def lag2 : Ctl × List OfMsg := (playR (confL [100, 200]) (confL [100]) (secs [1] []) lag1
  (fun i _ => if i = 1 then some (false, false) else none)).getD (Ctl.init, [])
def lag3 : Ctl × List OfMsg := (play (confL [100]) lag2 (.lag 1 true true)).getD (Ctl.init, [])

theorem confL_wf : (confL [100]).WF := by
  refine ⟨by decide, by decide, by decide, by decide, ?_, ?_, mirrors_all (by decide)⟩
  · intro p hp vid h
    simp only [confL, List.mem_cons, List.not_mem_nil, or_false] at hp
    rcases hp with rfl | rfl | rfl <;> simp [lagP] at h <;> simp [confL] <;> omega
  · intro p hp vid h
    simp only [confL, List.mem_cons, List.not_mem_nil, or_false] at hp
    rcases hp with rfl | rfl | rfl <;> simp [lagP] at h ⊢

/-- A port with LACP that leaves a tagged VLAN in a reload can still send into that VLAN. For such a port `ports_delete`
(`faucet/valve.py` 922-927) calls `lacp_update` in place of `_port_delete_flows_state`; that deletes its rules and adds them
again, with the old configuration, before the new configuration is taken. So the rule that lets packets of the VLAN in stays:
here port 1 leaves VLAN 200, LACP comes up again, and packets tagged 200 from port 1 are still forwarded to port 2. -/
theorem lag_port_keeps_vlan_defect : ∃ s s1 s2 es e,
    Reach (confL [100, 200]) (fun k => Wire k ∧ Plain (confL [100, 200]) k) s ∧ Reloaded (confL [100, 200]) (confL [100]) (secs [1] []) s s1 ∧
    Handled (confL [100]) s1 (.lag 1 true true) s2 ∧
    (confL [100]).WF ∧ lagP [100] ∈ (confL [100]).ports ∧ Proc s2.sw 0 (pkt 1 0x20 0x30 [(200, 0)]) es ∧ e ∈ es ∧ e.port = 2 ∧
    ¬ Allowed (confL [100]) (lagP [100]) (pkt 1 0x20 0x30 [(200, 0)]) e := by
  have h0 : Reach (confL [100, 200]) (fun k => Wire k ∧ Plain (confL [100, 200]) k) ⟨lag0.1, swOf lag0, fun _ => False⟩ :=
    play_start (played (by decide +kernel))
  have h1 : Reach (confL [100, 200]) (fun k => Wire k ∧ Plain (confL [100, 200]) k) ⟨lag1.1, swOf lag1, fun _ => False⟩ :=
    play_event h0 (fun _ _ h => by cases h) (played (by decide +kernel))
  have h2 : Reloaded (confL [100, 200]) (confL [100]) (secs [1] []) ⟨lag1.1, swOf lag1, fun _ => False⟩ ⟨lag2.1, swOf lag2, fun _ => False⟩ :=
    reloaded (playedR (by decide +kernel)) (by decide)
  have h3 : Handled (confL [100]) ⟨lag2.1, swOf lag2, fun _ => False⟩ (.lag 1 true true) ⟨lag3.1, swOf lag3, fun _ => False⟩ :=
    handled (played (by decide +kernel))
  obtain ⟨es, h4, h5⟩ := send_proc (r := lag3) (k := pkt 1 0x20 0x30 [(200, 0)])
    (l := [(portController, [(200, 0)]), (2, [])]) (by decide +kernel)
  obtain ⟨e, he, hp, ht⟩ := emit_of_outs (es := es) (n := 2) (tags := []) (by rw [h5]; simp)
  refine ⟨_, _, _, es, e, h1, h2, h3, confL_wf, by simp [confL], h4, he, hp, ?_⟩
  refine not_allowed hp ht (by decide) ?_
  intro vid inner hc
  cases hc with
  | tagged h => simp [lagP] at h

/-! ### A packet-in that is handled after a reload -/

def late1 : LPort where
  number := 1
  native := some 100
def late2 (vid : Nat) : LPort where
  number := 2
  native := some vid
def late3 : LPort where
  number := 3
  native := some 200

def confLate (vid : Nat) : Cfg where
  ports := [late1, late2 vid, late3]
  vlans := [{ vid := 100 }, { vid := 200 }]

theorem confLate_wf (v : Nat) (hv : v = 100 ∨ v = 200) : (confLate v).WF := by
  refine ⟨by rcases hv with rfl | rfl <;> decide, by rcases hv with rfl | rfl <;> decide, by rcases hv with rfl | rfl <;> decide,
    by rcases hv with rfl | rfl <;> decide, ?_, ?_, mirrors_all (by rcases hv with rfl | rfl <;> decide)⟩
  · intro p hp vid h
    simp only [confLate, List.mem_cons, List.not_mem_nil, or_false] at hp
    rcases hp with rfl | rfl | rfl <;> simp [late1, late2, late3] at h <;> simp [confLate] <;> omega
  · intro p hp vid h
    simp only [confLate, List.mem_cons, List.not_mem_nil, or_false] at hp
    rcases hp with rfl | rfl | rfl <;> simp [late1, late2, late3] at h ⊢

theorem confLate_basic (v : Nat) (hv : v = 100 ∨ v = 200) : (confLate v).Basic := by
  rcases hv with rfl | rfl <;>
    exact ⟨by decide, by decide, by decide, by decide, by decide, by decide, by decide, by decide, by decide, by decide⟩

theorem confLate_reloadable : Reloadable (confLate 100) (confLate 200) (secs [2] []) where
  wf := confLate_wf _ (Or.inr rfl)
  basic := confLate_basic _ (Or.inr rfl)
  order := by
    constructor <;> simp [Cfg.InOrder, confLate, late1, late2, late3]
  dp := rfl
  sections := by
    constructor
    · simp [confLate]
    · intro p hp p' hp' hn hs
      simp only [confLate, List.mem_cons, List.not_mem_nil, or_false] at hp hp'
      rcases hp with rfl | rfl | rfl <;> rcases hp' with rfl | rfl | rfl <;>
        first
          | exact absurd hn (by decide)
          | exact absurd hs (by decide)
          | exact Or.inl rfl
  warm := by decide
  stays := by
    intro p hp p' hp' hn vid h1 h2
    simp only [confLate, List.mem_cons, List.not_mem_nil, or_false] at hp hp'
    rcases hp with rfl | rfl | rfl <;> rcases hp' with rfl | rfl | rfl <;>
      first
        | exact absurd hn (by decide)
        | exact Or.inr ⟨Iff.rfl, rfl⟩
        | (rcases h1 with h1 | h1 <;> rcases h2 with h2 | h2 <;> simp [late2] at h1 h2 <;> omega)
  gateways := by simp [confLate]
  limits := fun h => absurd (h.2 { vid := 100 } (by simp [confLate])) (by decide)

def lateR0 : Ctl × List OfMsg := (play (confLate 100) (Ctl.init, []) (.connect 1000 [1, 2, 3] (fun _ => none))).getD (Ctl.init, [])
def lateR1 : Ctl × List OfMsg := (playR (confLate 100) (confLate 200) (secs [2] []) lateR0).getD (Ctl.init, [])
def lateR2 : Ctl × List OfMsg := (play (confLate 200) lateR1 (.packetIn 1001 (pin 2 [(100, 0)] 0x20))).getD (Ctl.init, [])

/-- A packet that the switch sent to FAUCET before a reload, and that FAUCET handles after it, puts the host into a VLAN that
its port has left: on a standalone switch `rcv_packet` does not check that the port is in the VLAN (`faucet/valve.py`
1290-1300 does so only in stacks). From then on packets of that VLAN for the host leave through the port, tagged. Here port 2
moves from VLAN 100 to VLAN 200 while a packet from it is on its way to FAUCET; then a packet from port 1, in VLAN 100, is
forwarded to port 2. -/
theorem late_packet_defect : ∃ s u es0 e0 s1 s2 es e,
    Run (confLate 100) (fun k => Wire k ∧ Plain (confLate 100) k) s u ∧ Reloadable (confLate 100) (confLate 200) (secs [2] []) ∧
    Proc s.sw 0 (pkt 2 0x20 0x30 []) es0 ∧ e0 ∈ es0 ∧ e0.port = portController ∧ Reloaded (confLate 100) (confLate 200) (secs [2] []) s s1 ∧
    Handled (confLate 200) s1 (.packetIn 1001 (Emit.toPacketIn e0)) s2 ∧ late1 ∈ (confLate 200).ports ∧
    Proc s2.sw 0 (pkt 1 0x30 0x20 []) es ∧ e ∈ es ∧ e.port = 2 ∧ ¬ Allowed (confLate 200) late1 (pkt 1 0x30 0x20 []) e := by
  have h0 : Run (confLate 100) (fun k => Wire k ∧ Plain (confLate 100) k) ⟨lateR0.1, swOf lateR0, fun _ => False⟩ (fun i => [1, 2, 3].contains i) :=
    run_start (played (by decide +kernel))
  obtain ⟨es0, a1, a2⟩ := send_proc (r := lateR0) (k := pkt 2 0x20 0x30 []) (l := [(portController, [(100, 0)]), (1, [])]) (by decide +kernel)
  obtain ⟨e0, a3, a4, a5⟩ := emit_of_outs (es := es0) (n := portController) (tags := [(100, 0)]) (by rw [a2]; simp)
  have hgood := vlan_isolation_partial (confLate_wf _ (Or.inl rfl)) h0.reach (p := late2 100) (by simp [confLate]) (wire_pkt (by decide)) rfl a1 e0 a3
  have hpin : Emit.toPacketIn e0 = pin 2 [(100, 0)] 0x20 := by
    unfold Emit.toPacketIn pin
    rw [a5, hgood.1 _ (by decide), hgood.1 _ (by decide)]
    rfl
  have h1 : Reloaded (confLate 100) (confLate 200) (secs [2] []) ⟨lateR0.1, swOf lateR0, fun _ => False⟩ ⟨lateR1.1, swOf lateR1, fun _ => False⟩ :=
    reloaded (playedR (by decide +kernel)) (by decide)
  have h2 : Handled (confLate 200) ⟨lateR1.1, swOf lateR1, fun _ => False⟩ (.packetIn 1001 (pin 2 [(100, 0)] 0x20)) ⟨lateR2.1, swOf lateR2, fun _ => False⟩ :=
    handled (played (by decide +kernel))
  obtain ⟨es, h4, h5⟩ := send_proc (r := lateR2) (k := pkt 1 0x30 0x20 [])
    (l := [(portController, [(100, 0)]), (2, [(100, 0)])]) (by decide +kernel)
  obtain ⟨e, he, hp, ht⟩ := emit_of_outs (es := es) (n := 2) (tags := [(100, 0)]) (by rw [h5]; simp)
  generalize lateR0 = r0 at h0 h1 a1
  generalize lateR1 = r1 at h1 h2
  generalize lateR2 = r2 at h2 h4
  refine ⟨_, _, es0, e0, _, _, es, e, h0, confLate_reloadable, a1, a3, a4, h1, by rw [hpin]; exact h2, by simp [confLate], h4, he, hp, ?_⟩
  refine not_allowed hp ht (by decide) ?_
  intro vid inner hc q hq
  simp only [confLate, List.mem_cons, List.not_mem_nil, or_false] at hq
  rcases hq with rfl | rfl | rfl
  · exact ⟨by simp [late1], by simp [late1]⟩
  · refine ⟨by simp [late2], ?_⟩
    rintro ⟨-, ⟨h, h'⟩ | ⟨h, -⟩⟩
    · cases hc with
      | untagged h2 => simp [late1, late2] at h h2; omega
    · simp [late2] at h
  · exact ⟨by simp [late3], by simp [late3]⟩

/-! ### An added port that was up before -/

def deadP (n : Nat) : LPort where
  number := n
  native := some 100

def confDead (more : List LPort) : Cfg where
  ports := [deadP 1, deadP 2] ++ more
  vlans := [{ vid := 100 }]

theorem confDead_wf : (confDead [deadP 3]).WF := by
  refine ⟨by decide, by decide, by decide, by decide, ?_, ?_, mirrors_all (by decide)⟩
  · intro p hp vid h
    simp only [confDead, List.cons_append, List.nil_append, List.mem_cons, List.not_mem_nil, or_false] at hp
    rcases hp with rfl | rfl | rfl <;> simp [deadP] at h <;> simp [confDead] <;> omega
  · intro p hp vid h
    simp only [confDead, List.cons_append, List.nil_append, List.mem_cons, List.not_mem_nil, or_false] at hp
    rcases hp with rfl | rfl | rfl <;> simp [deadP] at h ⊢

theorem confDead_reloadable : Reloadable (confDead []) (confDead [deadP 3]) (secs [] []) where
  wf := confDead_wf
  basic := ⟨by decide, by decide, by decide, by decide, by decide, by decide, by decide, by decide, by decide, by decide⟩
  order := by
    constructor <;> simp [Cfg.InOrder, confDead, deadP]
  dp := rfl
  sections := by
    constructor
    · simp [confDead]
    · intro p hp p' hp' hn hs
      simp only [confDead, List.cons_append, List.nil_append, List.mem_cons, List.not_mem_nil, or_false] at hp hp'
      rcases hp with rfl | rfl <;> rcases hp' with rfl | rfl | rfl <;>
        first
          | exact absurd hn (by decide)
          | exact Or.inl rfl
  warm := by decide
  stays := by
    intro p hp p' hp' hn vid h1 h2
    simp only [confDead, List.cons_append, List.nil_append, List.mem_cons, List.not_mem_nil, or_false] at hp hp'
    rcases hp with rfl | rfl <;> rcases hp' with rfl | rfl | rfl <;>
      first
        | exact absurd hn (by decide)
        | exact Or.inr ⟨Iff.rfl, rfl⟩
  gateways := by simp [confDead]
  limits := fun h => absurd (h.2 { vid := 100 } (by simp [confDead])) (by decide)

def dead0 : Ctl × List OfMsg := (play (confDead []) (Ctl.init, []) (.connect 1000 [1, 2, 3] (fun _ => none))).getD (Ctl.init, [])
def dead1 : Ctl × List OfMsg := (playR (confDead []) (confDead [deadP 3]) (secs [] []) dead0).getD (Ctl.init, [])

/-- A port that was up when the switch connected, but not configured, and that a reload adds, does not take packets until its
link goes down and up again. When a switch connects, FAUCET records only the state of configured ports
(`_cold_start_ports_and_vlans`, `faucet/valve.py` 493-499), and a warm reload adds only added ports that are recorded to be up
(lines 1658-1662). -/
theorem added_port_dead_defect : ∃ s u s',
    Run (confDead []) (fun k => Wire k ∧ Plain (confDead []) k) s u ∧ Reloadable (confDead []) (confDead [deadP 3]) (secs [] []) ∧
    Reloaded (confDead []) (confDead [deadP 3]) (secs [] []) s s' ∧ s'.ctl.running = true ∧ deadP 3 ∈ (confDead [deadP 3]).ports ∧
    Takes u (deadP 3) ∧ Ordinary (confDead [deadP 3]) (deadP 3) (pkt 3 0x20 0x30 []) 100 [] 0x20 0x30 ∧ Proc s'.sw 0 (pkt 3 0x20 0x30 []) [] := by
  have h0 : Run (confDead []) (fun k => Wire k ∧ Plain (confDead []) k) ⟨dead0.1, swOf dead0, fun _ => False⟩ (fun i => [1, 2, 3].contains i) :=
    run_start (played (by decide +kernel))
  have h1 : Reloaded (confDead []) (confDead [deadP 3]) (secs [] []) ⟨dead0.1, swOf dead0, fun _ => False⟩ ⟨dead1.1, swOf dead1, fun _ => False⟩ :=
    reloaded (playedR (by decide +kernel)) (by decide)
  obtain ⟨es, h4, h5⟩ := send_proc (r := dead1) (k := pkt 3 0x20 0x30 []) (l := []) (by decide +kernel)
  have hes : es = [] := List.map_eq_nil_iff.1 h5
  rw [hes] at h4
  refine ⟨_, _, _, h0, confDead_reloadable, h1, by decide +kernel, by simp [confDead], ⟨rfl, rfl, rfl⟩, ?_, h4⟩
  exact ⟨rfl, rfl, rfl, by decide, by decide, by decide, by decide, by simp [pkt, fEthType, fInPort, fEthSrc, fEthDst], wire_pkt (by decide), .untagged rfl⟩

/-! ### A mirror of a port that is down -/

def mir1 (m : List Nat) : LPort where
  number := 1
  native := some 100
  mirror := m
def mir2 : LPort where
  number := 2
  native := some 100
def mir3 : LPort where
  number := 3
  native := some 100
def mir4 (vid : Option Nat) : LPort where
  number := 4
  native := vid
  outputOnly := vid.isNone
def mir5 : LPort where
  number := 5
  native := some 200

def confMir (m : List Nat) (vid : Option Nat) (comb : Bool) : Cfg where
  ports := [mir1 m, mir2, mir3, mir4 vid, mir5]
  vlans := [{ vid := 100 }, { vid := 200 }]
  combinatorial := comb

theorem confMir_wf (b : Bool) : (confMir [] (some 200) b).WF := by
  refine ⟨by cases b <;> decide, by cases b <;> decide, by cases b <;> decide, by cases b <;> decide, ?_, ?_, mirrors_all (by cases b <;> decide)⟩
  · intro p hp vid h
    simp only [confMir, List.mem_cons, List.not_mem_nil, or_false] at hp
    rcases hp with rfl | rfl | rfl | rfl | rfl <;> simp [mir1, mir2, mir3, mir4, mir5] at h <;> simp [confMir] <;> omega
  · intro p hp vid h
    simp only [confMir, List.mem_cons, List.not_mem_nil, or_false] at hp
    rcases hp with rfl | rfl | rfl | rfl | rfl <;> simp [mir1, mir2, mir3, mir4, mir5] at h ⊢

def mirR0 (b : Bool) : Ctl × List OfMsg := (play (confMir [4] none b) (Ctl.init, []) (.connect 1000 [2, 3, 4, 5] (fun _ => none))).getD (Ctl.init, [])
def mirR1 (b : Bool) : Ctl × List OfMsg := (playR (confMir [4] none b) (confMir [] (some 200) b) (secs [4] []) (mirR0 b)).getD (Ctl.init, [])

/-- Port 4 mirrors port 1, which is down. In a reload port 4 becomes an ordinary port of VLAN 200 and mirrors nothing. Packets
that are flooded in VLAN 100 still go to port 4: flood rules send to ports that are down too, and to their mirrors; a reload
makes the flood rules of a VLAN again only if ports join or leave the VLAN or a changed port in it is up
(`faucet/valve.py` 1663-1667), but not for a change of mirrors of a port that is down. -/
theorem old_mirror_gets_floods_defect (b : Bool) : ∃ s u s' es e,
    Run (confMir [4] none b) (fun k => Wire k ∧ Plain (confMir [4] none b) k) s u ∧ (confMir [] (some 200) b).WF ∧
    Reloaded (confMir [4] none b) (confMir [] (some 200) b) (secs [4] []) s s' ∧ mir3 ∈ (confMir [] (some 200) b).ports ∧
    Proc s'.sw 0 (pkt 3 0x30 0x20 []) es ∧ e ∈ es ∧ e.port = 4 ∧ ¬ Allowed (confMir [] (some 200) b) mir3 (pkt 3 0x30 0x20 []) e := by
  have h0 : Run (confMir [4] none b) (fun k => Wire k ∧ Plain (confMir [4] none b) k) ⟨(mirR0 b).1, swOf (mirR0 b), fun _ => False⟩
      (fun i => [2, 3, 4, 5].contains i) :=
    run_start (played (by cases b <;> decide +kernel))
  have h1 : Reloaded (confMir [4] none b) (confMir [] (some 200) b) (secs [4] []) ⟨(mirR0 b).1, swOf (mirR0 b), fun _ => False⟩
      ⟨(mirR1 b).1, swOf (mirR1 b), fun _ => False⟩ :=
    reloaded (playedR (by cases b <;> decide +kernel)) (by cases b <;> decide)
  obtain ⟨es, h4, h5⟩ := send_proc (r := mirR1 b) (k := pkt 3 0x30 0x20 [])
    (l := [(portController, [(100, 0)]), (1, []), (2, []), (4, [])]) (by cases b <;> decide +kernel)
  obtain ⟨e, he, hp, ht⟩ := emit_of_outs (es := es) (n := 4) (tags := []) (by rw [h5]; simp)
  generalize mirR0 b = r0 at h0 h1
  generalize mirR1 b = r1 at h1 h4
  refine ⟨_, _, _, es, e, h0, confMir_wf b, h1, by simp [confMir], h4, he, hp, ?_⟩
  refine not_allowed hp ht (by decide) ?_
  intro vid inner hc q hq
  have hvid : vid = 100 := by
    cases hc with
    | untagged h => simp [mir3] at h; omega
  subst hvid
  simp only [confMir, List.mem_cons, List.not_mem_nil, or_false] at hq
  rcases hq with rfl | rfl | rfl | rfl | rfl <;> simp [mir1, mir2, mir3, mir4, mir5, RightTags]

/-! ### A gateway address that changes -/

def confGw (mac : Nat) : Cfg where
  ports := [deadP 1, deadP 2, { number := 3, native := some 300 }]
  vlans := [{ vid := 100, faucetMac := mac }, { vid := 300 }]

theorem confGw_wf : (confGw 0xAA).WF := by
  refine ⟨by decide, by decide, by decide, by decide, ?_, ?_, mirrors_all (by decide)⟩
  · intro p hp vid h
    simp only [confGw, List.mem_cons, List.not_mem_nil, or_false] at hp
    rcases hp with rfl | rfl | rfl <;> simp [deadP] at h <;> simp [confGw] <;> omega
  · intro p hp vid h
    simp only [confGw, List.mem_cons, List.not_mem_nil, or_false] at hp
    rcases hp with rfl | rfl | rfl <;> simp [deadP] at h ⊢

def gw0 : Ctl × List OfMsg := (play (confGw 0xBB) (Ctl.init, []) (.connect 1000 [1, 2, 3] (fun _ => none))).getD (Ctl.init, [])
def gw1 : Ctl × List OfMsg := (playR (confGw 0xBB) (confGw 0xAA) (secs [] [100]) gw0).getD (Ctl.init, [])

/-- When `faucet_mac` of a VLAN changes in a warm reload, packets from the old address are still dropped: the rule against
spoofing (`add_drop_spoofed_faucet_mac_rules`, `faucet/valve_switch_standalone.py` 520-527) matches on the source address only, and `del_vlan`
(lines 542-548) deletes rules by VLAN. -/
theorem old_gateway_dropped_defect : ∃ s u s',
    Run (confGw 0xBB) (fun k => Wire k ∧ Plain (confGw 0xBB) k) s u ∧ (confGw 0xAA).WF ∧ (confGw 0xAA).Basic ∧
    Reloaded (confGw 0xBB) (confGw 0xAA) (secs [] [100]) s s' ∧ s'.ctl.running = true ∧ deadP 1 ∈ (confGw 0xAA).ports ∧
    Takes u (deadP 1) ∧ Ordinary (confGw 0xAA) (deadP 1) (pkt 1 0xBB 0x30 []) 100 [] 0xBB 0x30 ∧ Proc s'.sw 0 (pkt 1 0xBB 0x30 []) [] := by
  have h0 : Run (confGw 0xBB) (fun k => Wire k ∧ Plain (confGw 0xBB) k) ⟨gw0.1, swOf gw0, fun _ => False⟩ (fun i => [1, 2, 3].contains i) :=
    run_start (played (by decide +kernel))
  have h1 : Reloaded (confGw 0xBB) (confGw 0xAA) (secs [] [100]) ⟨gw0.1, swOf gw0, fun _ => False⟩ ⟨gw1.1, swOf gw1, fun _ => False⟩ :=
    reloaded (playedR (by decide +kernel)) (by decide)
  obtain ⟨es, h4, h5⟩ := send_proc (r := gw1) (k := pkt 1 0xBB 0x30 []) (l := []) (by decide +kernel)
  have hes : es = [] := List.map_eq_nil_iff.1 h5
  rw [hes] at h4
  refine ⟨_, _, _, h0, confGw_wf, ?_, h1, by decide +kernel, by simp [confGw], ⟨rfl, rfl, rfl⟩, ?_, h4⟩
  · exact ⟨by decide, by decide, by decide, by decide, by decide, by decide, by decide, by decide, by decide, by decide⟩
  · exact ⟨rfl, rfl, rfl, by decide, by decide, by decide, by decide, by simp [pkt, fEthType, fInPort, fEthSrc, fEthDst], wire_pkt (by decide), .untagged rfl⟩

/-! ### A host that is forgotten -/

def fgt1 : Ctl × List OfMsg := (play (confLate 100) lateR0 (.packetIn 1001 (pin 3 [(200, 0)] 0x20))).getD (Ctl.init, [])
def fgt2 : Ctl × List OfMsg := (playR (confLate 100) (confLate 200) (secs [2] []) fgt1).getD (Ctl.init, [])

/-- When a port joins or leaves a VLAN, FAUCET forgets the hosts of the VLAN (`del_vlans` calls `reset_caches`,
`faucet/valve.py` 452-462), but the switch keeps the rules that say that their packets need not be reported: the delete in
`del_vlan` (`faucet/valve_switch_standalone.py` 542-548) is for all rules of the VLAN, but `valve_flowreorder` drops it
(`remove_overlap_ofmsgs`, `faucet/valve_of.py` 1217-1225), because `add_vlan` then adds a rule with its table, match and priority. So
FAUCET does not know hosts that go on sending, until the rules time out. -/
theorem forgotten_host_defect : ∃ s u s' es,
    Run (confLate 100) (fun k => Wire k ∧ Plain (confLate 100) k) s u ∧ Reloadable (confLate 100) (confLate 200) (secs [2] []) ∧
    s.Knows 200 0x20 late3 ∧ Reloaded (confLate 100) (confLate 200) (secs [2] []) s s' ∧ Learn.host s'.ctl.learn 200 0x20 = none ∧
    Proc s'.sw 0 (pkt 3 0x20 0x30 []) es ∧ (∃ e ∈ es, e.port = 2) ∧ ∀ e ∈ es, e.port ≠ portController := by
  have h0 : Run (confLate 100) (fun k => Wire k ∧ Plain (confLate 100) k) ⟨lateR0.1, swOf lateR0, fun _ => False⟩ (fun i => [1, 2, 3].contains i) :=
    run_start (played (by decide +kernel))
  obtain ⟨seen, h1⟩ := run_learn (confLate_wf _ (Or.inl rfl)) h0 (p := late3) (by simp [confLate]) (k := pkt 3 0x20 0x30 [])
    (wire_pkt (by decide)) (plain_pkt (by decide)) rfl (l := [(portController, [(200, 0)])]) (by decide +kernel) (by simp) rfl (r' := fgt1)
    (played (by decide +kernel))
  have h2 : Reloaded (confLate 100) (confLate 200) (secs [2] []) ⟨fgt1.1, swOf fgt1, seen⟩ ⟨fgt2.1, swOf fgt2, seen⟩ :=
    reloaded (playedR (by decide +kernel)) (by decide)
  have hk : (Learn.host fgt1.1.learn 200 0x20).map (fun e => e.port.number) = some 3 := by decide +kernel
  have hno : (Learn.host fgt2.1.learn 200 0x20).isNone = true := by decide +kernel
  obtain ⟨es, h4, h5⟩ := send_proc (r := fgt2) (k := pkt 3 0x20 0x30 []) (l := [(2, [])]) (by decide +kernel)
  obtain ⟨e, he, hn⟩ := Option.map_eq_some_iff.1 hk
  generalize fgt1 = r1 at h1 h2 he
  generalize fgt2 = r2 at h2 h4 hno
  refine ⟨_, _, _, es, h1, confLate_reloadable, ⟨e, he, hn⟩, h2, by simpa using hno, h4, ?_, ?_⟩
  · obtain ⟨x, hx, hp, -⟩ := emit_of_outs (es := es) (n := 2) (tags := []) (by rw [h5]; simp)
    exact ⟨x, hx, hp⟩
  · intro x hx hp
    have : (x.port, x.tags) ∈ OF.outs es := List.mem_map.2 ⟨x, hx, rfl⟩
    rw [h5, hp] at this
    simp [portController] at this

end Faucet.L2.Ex
