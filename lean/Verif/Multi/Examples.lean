import Verif.Multi.Props
import Verif.L2.DeliveryExamples

/-! # Several switches: cases that meet the hypotheses -/

namespace Faucet.Multi.Ex
open Faucet.OF Faucet.L2 Faucet.L2.Ex

/-- Switch 1 has a LAG and mirrors; switches 2 and 3 have the same ports and VLANs, and flood per VLAN or per port. -/
def net : Dict Nat Cfg := [(1, conf), (2, confD false), (3, confD true)]

theorem net_ok : Switches net := by
  refine ⟨by decide, ?_⟩
  intro id c h
  simp only [net, Dict.get?_cons] at h
  split at h
  · cases h; rfl
  · split at h
    · cases h; rfl
    · split at h
      · cases h; rfl
      · cases h

def Ok (id : Nat) (k : Pkt) : Prop := Wire k ∧ ∀ c, net.get? id = some c → Plain c k

/-- An event of a switch whose flows are known. -/
theorem step {s : Net} (h : Run net Ok s) {id : Nat} {v : Valve} {r r' : Ctl × List OfMsg} {ev : Ev} (hv : s.valves.get? id = some v)
    (hr : v.ctl = r.1) (hsw : s.sw id = swOf r) (hp : play v.cfg r ev = some r') (hf : fromSwitch ev = true)
    (hc : (∃ now up lag, ev = .connect now up lag) ∨ s.conn id = true) (hrun : requireRunning ev = false ∨ v.ctl.running = true)
    (hca : connAfter s.valves s.conn id ev id = true) (hs : ∀ now k, ev = .packetIn now k → s.seen id k) :
    Run net Ok ⟨s.valves.set id ⟨v.cfg, r'.1⟩, put s.sw id (swOf r'), connAfter s.valves s.conn id ev, s.seen,
      put s.up id (ev.upAfter (s.up id))⟩ := by
  unfold play at hp
  obtain ⟨x, hx, hp⟩ := Option.bind_eq_some_iff.1 hp
  obtain ⟨out, ho, rfl⟩ := Option.map_eq_some_iff.1 hp
  have hh : handle s.valves id ev = some ([(id, x.1)], s.valves.set id ⟨v.cfg, x.2⟩) := by
    have hg : getValve s.valves id (requireRunning ev) = some v := by
      unfold getValve
      rw [hv]
      rcases hrun with h | h <;> simp [h]
    unfold handle
    rw [hg]
    simp only
    rw [hr, hx]
    rfl
  refine .event (sh := _root_.id) (bar := fun _ => true) h (fun l => List.Perm.refl l) hf hc hs hh ?_
  have hs : swOf (x.2, r.2 ++ out) = (swOf r).execAll out := by simp [swOf, Switch.execAll]
  simp only [sendAll, List.foldlM_cons, List.foldlM_nil, sendOne]
  rw [if_pos hca, ho, hs, hsw]
  rfl

/-- Switches 2 and 1 have connected, switch 3 has not. -/
def two : Net where
  valves := ((startValves net).set 2 ⟨confD false, (bootD false).1⟩).set 1 ⟨conf, booted.1⟩
  sw := put (put (fun _ => emptySwitch) 2 (swOf (bootD false))) 1 (swOf booted)
  conn := put (put (fun _ => false) 2 true) 1 true
  seen := fun _ _ => False
  up := put (put (fun _ _ => false) 2 (fun i => upD.contains i)) 1 (fun i => [1, 2, 3, 4, 5].contains i)

theorem two_run : Run net Ok two := by
  have h1 := step (id := 2) (v := ⟨confD false, Ctl.init⟩) (r := (Ctl.init, [])) (r' := bootD false)
    (ev := .connect 1000 upD (fun _ => none)) (Run.start (sw0 := fun _ => emptySwitch)) rfl rfl rfl (played (by decide +kernel)) rfl
    (.inl ⟨_, _, _, rfl⟩) (.inl rfl) rfl (fun _ _ h => by cases h)
  have h2 := step (id := 1) (v := ⟨conf, Ctl.init⟩) (r := (Ctl.init, [])) (r' := booted)
    (ev := .connect 1000 [1, 2, 3, 4, 5] (fun _ => some (true, true))) h1 rfl rfl rfl (played (by decide +kernel)) rfl
    (.inl ⟨_, _, _, rfl⟩) (.inl rfl) rfl (fun _ _ h => by cases h)
  exact h2

/-- Each of them is as if it were alone. -/
example : ∃ v, two.valves.get? 2 = some v ∧ v.cfg = confD false ∧ v.ctl.running = true ∧
    L2.Run (confD false) (Ok 2) ⟨v.ctl, two.sw 2, two.seen 2⟩ (two.up 2) :=
  every_switch_alone net_ok two_run rfl rfl

/-- Switch 3 is not running, 1 and 2 are. -/
example : (∃ v, two.valves.get? 1 = some v ∧ v.ctl.running = true) ∧ ¬ ∃ v, two.valves.get? 3 = some v ∧ v.ctl.running = true :=
  ⟨(running_iff_connected net_ok two_run 1).2 rfl, fun h => by
    have := (running_iff_connected net_ok two_run 3).1 h
    cases this⟩

theorem two_sw2 : two.sw 2 = swOf (bootD false) := rfl

theorem two_noBan : NoBan (two.sw 2) := by
  rw [two_sw2]
  exact unlimited_never_bans (confD_wf false) (confD_basic false) (confD_unlimited false) (bootD_run false)

/-- Switch 2 delivers a packet for an unknown host to all other ports of the VLAN. -/
example : ∃ es, Proc (two.sw 2) 0 (pkt 5 0x30 0x20 []) es ∧ Flooded (confD false) dp5 (pkt 5 0x30 0x20 []) 100 [] es := by
  obtain ⟨es, h1, -⟩ := send_proc (r := bootD false) (k := pkt 5 0x30 0x20 []) (l := _) (Option.some_get (by decide +kernel)).symm
  refine ⟨es, h1, ?_⟩
  obtain ⟨v, -, h⟩ := every_switch_delivers_partial net_ok two_run (id := 2) rfl (confD_wf false) (confD_basic false) rfl two_noBan
    (p := dp5) (by simp [confD]) dp5_takes (ord5 false 0x20 (by decide)) h1
  rcases h with h | ⟨q, -, -, ⟨x, hx, -⟩, -⟩
  · exact h
  · exact hx.elim

/-- Switch 1 isolates its VLANs. -/
example : ∃ es, Proc (two.sw 1) 0 (pkt 3 0x20 0x30 [(100, 5), (7, 7)]) es ∧ es.length = 4 ∧
    ∀ e ∈ es, SameContent (pkt 3 0x20 0x30 [(100, 5), (7, 7)]) e ∧
      Allowed conf { number := 3, tagged := [100, 200], receiveLldp := true } (pkt 3 0x20 0x30 [(100, 5), (7, 7)]) e := by
  obtain ⟨es, h1, h2⟩ := send_proc (r := booted) (k := pkt 3 0x20 0x30 [(100, 5), (7, 7)])
    (l := [(portController, [(100, 5), (7, 7)]), (1, [(7, 7)]), (4, [(7, 7)]), (5, [(7, 7)])]) (by decide +kernel)
  have h1' : Proc (two.sw 1) 0 (pkt 3 0x20 0x30 [(100, 5), (7, 7)]) es := h1
  refine ⟨es, h1', ?_, every_switch_isolates_partial net_ok two_run (id := 1) rfl conf_wf rfl
    (p := { number := 3, tagged := [100, 200], receiveLldp := true }) (by simp [conf]) (k := pkt 3 0x20 0x30 [(100, 5), (7, 7)])
    (wire_pkt (by decide)) rfl h1'⟩
  have := congrArg List.length h2
  simpa [OF.outs] using this

theorem net_wf : ∀ id c, net.get? id = some c → c.WF := by
  intro id c h
  simp only [net, Dict.get?_cons] at h
  split at h
  · cases h; exact conf_wf
  · split at h
    · cases h; exact confD_wf false
    · split at h
      · cases h; exact confD_wf true
      · cases h

/-- A packet from switch 3, which is not connected, or from one that is not configured, is ignored. -/
example : (handle two.valves 3 (.packetIn 1001 (pin 3 [(100, 5)] 0x20))).map (·.1.keys) = some [] ∧
    (handle two.valves 7 (.connect 1001 [1] (fun _ => none))).map (·.1.keys) = some [] ∧
    (handle two.valves 2 (.packetIn 1001 (pin 3 [(100, 5)] 0x20))).map (·.1.keys) = some [2] := by decide +kernel

/-- Handlers do not raise. -/
example : ∃ out vs, handle two.valves 2 (.disconnect 2000 (fun _ => none)) = some (out, vs) :=
  no_event_raises net_ok net_wf two_run 2 _

/-- Switch 3 is ignored because it is not running. -/
example : handle two.valves 3 (.portDown 1001 5 none) = some ([], two.valves) :=
  not_running_ignored (v := ⟨confD true, Ctl.init⟩) rfl rfl rfl (fun _ _ _ h => by cases h) (fun _ _ h => by cases h)

/-- A sweep of all switches. -/
example : ∃ out vs v v', expireAll 5000 two.valves = some (out, vs) ∧ two.valves.get? 2 = some v ∧ vs.get? 2 = some v' ∧
    ∀ x ∈ (confD false).vlans, ∀ ms st', Learn.sweep (confD false).learn v.ctl.learn 5000 x.vid = some (ms, st') →
      ∀ m, Learn.host v'.ctl.learn x.vid m = Learn.host st' x.vid m := by
  have h : (expireAll 5000 two.valves).isSome = true := by decide +kernel
  obtain ⟨⟨out, vs⟩, he⟩ := Option.isSome_iff_exists.1 h
  obtain ⟨v, v', h1, h2, h3⟩ := every_switch_expires net_ok two_run he (id := 2) rfl (confD_wf false) rfl
  exact ⟨out, vs, v, v', he, h1, h2, h3⟩

/-- The service is called for all three switches; the one that is not running returns nothing. -/
example : (expireAll 5000 two.valves).map (fun r => (r.1.keys, r.2.keys)) = some ([1, 2], [1, 2, 3]) := by decide +kernel

/-- Services that have messages for each other: the last wins. The numbers are switches, and each has a message for all. -/
example : (serve (fun _ : Unit => true) (fun id others vs => some ((id :: others).map (fun j => (j, [id])), vs)) [(1, ()), (2, ()), (3, ())]).map (·.1)
    = some [(1, [3]), (2, [3]), (3, [3])] := by decide

end Faucet.Multi.Ex
