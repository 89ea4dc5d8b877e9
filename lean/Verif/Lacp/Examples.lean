import Verif.Lacp.Props
import Verif.Lacp.Nominate

/-!
# LACP: cases that meet the hypotheses, and defects
-/

namespace Faucet.Lacp

def exConfs : Dict Nat Conf := [(1, { lacp := 5 }), (2, { lacp := 5 }), (3, {})]

/-- Two members of bundle 5 connect, one hears its partner. -/
def exOps : List Op := [.connect [1, 2, 3] [5], .pdu 1 10 { sync := true } [5], .pdu 2 11 { sync := false } [5]]

example : exConfs.keys.Nodup := by decide

/-- Port 1 forwards, port 2 (without synchronization) does not, port 3 (not in a bundle) does. -/
example : Forwards (run (start 30 exConfs) exOps) 1 ∧ ¬ Forwards (run (start 30 exConfs) exOps) 2 ∧
    Forwards (run (start 30 exConfs) exOps) 3 ∧ (run (start 30 exConfs) exOps).running = true := by
  unfold Forwards; decide

/-- Port 1 is silent too long. -/
example : lastHeard 1 exOps = some (10, { sync := true }) ∧
    ¬ Forwards (run (start 30 exConfs) (exOps ++ [.expire 41 [5]])) 1 ∧
    Forwards (run (start 30 exConfs) (exOps ++ [.expire 40 [5]])) 1 := by unfold Forwards; decide

example : ((run (start 30 exConfs) exOps).ports.get? 1).any
    (fun p => decide (p.actor = .up ∧ p.role = .selected ∧ p.conf.lacp ≠ 0 ∧ p.conf.hasVlans = true)) = true := by
  decide

/-- A reply is sent and says that the port collects. -/
example : Msg.reply 1 (true, true, true) ∈
    (lacpHandler { conf := { lacp := 5 }, phys := true, role := .selected } 1 10 { sync := true } true).2 := by decide

/-- What `step` would do if a switch connects again while it is taken to be connected: `datapath_connect` runs without
`datapath_disconnect` before it (`faucet/faucet.py` on `EventDPReconnected`). -/
def reconnect (s : Sw) (ups nom : List Nat) : Sw := setRunning (onPorts (flush s) (connPort ups nom)) true

/-- After a reconnection in which the link of a member is down, the member is still UP and selected although it has no
rules; when the link comes back and the partner is heard, its state has changed to INIT and back. A port that is not
reported to be up at reconnection therefore counts as an active member. -/
theorem reconnect_defect :
    ∃ (ops : List Op) (s : Sw), s = reconnect (run (start 30 exConfs) ops) [2, 3] [5] ∧ s.running = true ∧
      (∃ p, s.ports.get? 1 = some p ∧ p.actor = .up ∧ p.role = .selected) ∧ ¬ Forwards s 1 :=
  ⟨exOps, _, rfl, by decide, ⟨((reconnect (run (start 30 exConfs) exOps) [2, 3] [5]).ports.get? 1).getD {}, by decide,
    by decide, by decide⟩, by unfold Forwards; decide⟩

/-- A history with reloads: the other member leaves the bundle, a port is added, and the VLANs of member 1 change, so that
it has to hear its partner again. -/
def exReloads : List Op := exOps ++ [.reload [(1, { lacp := 5 }), (2, {}), (3, {}), (4, { lacp := 5 })] [] [] [5],
  .portUp 4 [5], .pdu 4 20 { sync := true } [5]]

example : Calm (start 30 exConfs) exReloads ∧ Calm (start 30 exConfs) exOps := by
  refine ⟨?_, ?_⟩ <;> simp only [Calm, exReloads, exOps, List.cons_append, List.nil_append, and_true, true_and] <;> decide

/-- The reload leaves member 1 as it is, the new member forwards once it hears its partner; a later reload that changes the
VLANs of member 1 stops it until it hears its partner again. -/
example : Forwards (run (start 30 exConfs) exReloads) 1 ∧ Forwards (run (start 30 exConfs) exReloads) 4 ∧
    ¬ Forwards (run (start 30 exConfs) (exReloads ++ [.reload [(1, { lacp := 5 }), (4, { lacp := 5 })] [] [1] [5]])) 1 ∧
    ¬ Forwards (run (start 30 exConfs) (exReloads ++ [.expire 45 [5]])) 1 ∧
    Forwards (run (start 30 exConfs) (exReloads ++ [.expire 45 [5]])) 4 ∧
    Forwards (run (start 30 exConfs) (exReloads ++ [.reload [(1, { lacp := 5 }), (4, { lacp := 5 })] [] [1] [5],
      .pdu 1 30 { sync := true } [5]])) 1 := by
  unfold Forwards; decide

/-- A warm reload that takes a port out of its bundle leaves the rule that drops all its packets: the port, up and no
longer a member, forwards nothing. -/
theorem reload_leaves_drop_defect :
    ∃ (confs : Dict Nat Conf) (s : Sw), confs.get? 2 = some {} ∧
      s = step (run (start 30 exConfs) exOps) (.reload confs [] [] [5]) ∧ (∃ p, s.ports.get? 2 = some p ∧ p.running = true) ∧
      2 ∈ s.rules ∧ ¬ Forwards s 2 :=
  ⟨[(1, { lacp := 5 }), (2, {}), (3, {})], _, by decide, rfl,
    ⟨((step (run (start 30 exConfs) exOps) (.reload [(1, { lacp := 5 }), (2, {}), (3, {})] [] [] [5])).ports.get? 2).getD {},
      by decide, by decide⟩, by decide, by unfold Forwards; decide⟩

/-- A warm reload that removes a member from the configuration leaves rules that admit its packets, together with the rule
that drops them. -/
theorem reload_readds_rules_defect :
    ∃ (confs : Dict Nat Conf) (s : Sw), confs.get? 1 = none ∧
      s = step (run (start 30 exConfs) exOps) (.reload confs [] [] [5]) ∧ 1 ∈ s.rules ∧ 1 ∈ s.drop :=
  ⟨[(2, { lacp := 5 }), (3, {})], _, by decide, rfl, by decide, by decide⟩

/-- A port that is up but not configured is remembered to be up even after the switch disconnects. If a reload adds it as
a bundle member while the switch is not connected, it is taken to be up. When the switch connects with the port down, and
the port then comes up, nothing is done: the member hears its partner, is UP and selected, but no packet is admitted. -/
theorem stale_up_defect :
    ∃ (ops : List Op) (confs : Dict Nat Conf) (s : Sw),
      s = run (start 30 exConfs) (ops ++ [.connect [1, 2] [5], .portUp 4 [5], .pdu 4 50 { sync := true } [5]]) ∧
      s.running = true ∧ (∃ p, s.ports.get? 4 = some p ∧ p.conf = { lacp := 5 } ∧ p.actor = .up ∧ p.role = .selected) ∧
      ¬ Forwards s 4 ∧ ops = [.connect [1, 2] [5], .portUp 4 [5], .disconnect [5], .reload confs [] [] [5]] :=
  ⟨_, (4, { lacp := 5 }) :: exConfs, _, rfl, by decide,
    ⟨((run (start 30 exConfs) ([.connect [1, 2] [5], .portUp 4 [5], .disconnect [5],
      .reload ((4, { lacp := 5 }) :: exConfs) [] [] [5]] ++
        [.connect [1, 2] [5], .portUp 4 [5], .pdu 4 50 { sync := true } [5]])).ports.get? 4).getD {}, by decide, by decide,
        by decide, by decide⟩, by unfold Forwards; decide, rfl⟩

end Faucet.Lacp
