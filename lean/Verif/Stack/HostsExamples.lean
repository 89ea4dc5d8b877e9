import Verif.Stack.HostRun
import Verif.Stack.Examples
import Mathlib.Tactic.ByContra

/-!
# Hosts of a stack: concrete cases and defects
-/

namespace Faucet.Stack.Ex

open Faucet.Stack

/-- A stack of three levels: 1 - 2 - 3 and 1 - 4. -/
def tee : Cabling := link 1 1 2 1 ++ link 2 2 3 1 ++ link 1 2 4 1

theorem tee_ok : tee.Ok := ok_of (by decide +kernel)

def teeUp : World := after tee 1 (allHear tee 1) (by decide +kernel)

theorem teeUp_reached : Reached tee cfg 1 teeUp := after_reached _ (by decide +kernel)

theorem teeUp_agreed : Agreed tee teeUp := agreed_of (by decide +kernel)

def teeNet : Net := teeUp.net tee 1

theorem teeUp_settled : ∃ g, Settled teeNet g 1 :=
  settled_of_history tee_ok ⟨⟨1, 1, 2, 1⟩, by decide +kernel, rfl⟩ teeUp_reached teeUp_agreed

/-- How hosts are learned in the examples. -/
def hcfg : HCfg := ⟨true, true, fun _ _ => false, fun _ _ => true, fun _ _ => some 0, 3⟩

/-- The port of a switch that leads to another switch; for switch 2 the one to switch 3. -/
def at1 : SPort := ⟨1, 2, 1, true, true⟩
def at2 : SPort := ⟨2, 3, 1, true, true⟩
def at3 : SPort := ⟨1, 2, 2, true, true⟩
def at4 : SPort := ⟨1, 1, 2, true, true⟩

theorem tee_path {g : Graph} (st : Settled teeNet g 1) : shortestPath g 3 1 = [3, 2, 1] := by
  have h1 := st.graph 3
  rw [← h1]
  decide +kernel

theorem tee_connected {g : Graph} (st : Settled teeNet g 1) :
    Connected (Adj g) 2 1 ∧ Connected (Adj g) 3 1 ∧ Connected (Adj g) 4 1 := by
  have port : ∀ u, ∀ p ∈ teeNet.ports u, p.up = true → Adj g u p.peerDp :=
    fun u p hp hu => (st.links u _).2 ⟨p, hp, hu, rfl⟩
  have a21 : Adj g 2 1 := port 2 ⟨1, 1, 1, true, true⟩ (by decide +kernel) rfl
  have a32 : Adj g 3 2 := port 3 at3 (by decide +kernel) rfl
  have a41 : Adj g 4 1 := port 4 at4 (by decide +kernel) rfl
  exact ⟨.step a21 (.refl _ _), .step a32 (.step a21 (.refl _ _)), .step a41 (.refl _ _)⟩

/-- No parallel links. -/
theorem tee_noParallel : NoParallel teeNet := by
  have hp : ∀ s, teeNet.ports s = if s = 1 then teeNet.ports 1 else if s = 2 then teeNet.ports 2
      else if s = 3 then teeNet.ports 3 else if s = 4 then teeNet.ports 4 else [] := by
    intro s
    split
    · rename_i h; rw [h]
    · split
      · rename_i h; rw [h]
      · split
        · rename_i h; rw [h]
        · split
          · rename_i h; rw [h]
          · rename_i h1 h2 h3 h4
            refine List.eq_nil_iff_forall_not_mem.2 (fun p hp => ?_)
            rw [teeNet, World.net, mem_netPorts] at hp
            obtain ⟨x, hx, he, _⟩ := hp
            have : ∀ x ∈ tee, x.dp = 1 ∨ x.dp = 2 ∨ x.dp = 3 ∨ x.dp = 4 := by decide +kernel
            have := this x hx
            omega
  intro s
  rw [hp s]
  split
  · decide +kernel
  · split
    · decide +kernel
    · split
      · decide +kernel
      · split
        · decide +kernel
        · nofun

/-- The host at port 9 of switch 3 is heard there and by the switches on the way to the root. -/
def heard : List HEvent :=
  [.packet 3 (.edge 9) 5 [], .packet 2 (.stack at2) 5 [3, 4, 1], .packet 1 (.stack at1) 5 [4, 3, 2]]

theorem heard_stays : ∀ ev ∈ heard, StaysAt 3 9 ev := by
  intro ev hev
  simp only [heard, List.mem_cons, List.not_mem_nil, or_false] at hev
  rcases hev with rfl | rfl | rfl
  · exact ⟨rfl, rfl⟩
  · trivial
  · trivial

theorem heard_upward {g : Graph} (st : Settled teeNet g 1) : UpwardRun hcfg teeNet g 1 3 noHosts heard := by
  have hpath := tee_path st
  have hd : ∀ s, s ∈ [3, 2, 1] → dist g 1 s = if s = 3 then 3 else if s = 2 then 2 else 1 := by
    intro s hs
    unfold dist
    rw [← st.graph 3]
    revert s
    decide +kernel
  refine ⟨?_, ?_, ?_, trivial⟩
  · intro c hs hc hp
    rw [hpath] at hc
    have d1 := hp.dist
    rw [hd 3 (by simp), hd c hc] at d1
    simp only [if_true] at d1
    split at d1
    · omega
    · split at d1 <;> omega
  · intro c hs hc hp
    rw [hpath] at hc
    have d1 := hp.dist
    rw [hd 2 (by simp), hd c hc] at d1
    have : c = 3 := by
      by_contra h3
      rw [if_neg h3] at d1
      split at d1 <;> simp at d1
    rw [this]
    decide +kernel
  · intro c hs hc hp
    rw [hpath] at hc
    have d1 := hp.dist
    rw [hd 1 (by simp), hd c hc] at d1
    have : c = 3 ∨ c = 2 := by
      simp only [List.mem_cons, List.not_mem_nil, or_false] at hc
      rcases hc with h | h | h
      · exact .inl h
      · exact .inr h
      · rw [h] at d1; simp at d1
    rcases this with h | h <;> rw [h] <;> decide +kernel

/-- C65: a packet from a host of switch 4, which does not know the host, arrives once. -/
example : ∃ f, ∀ f', f ≤ f' →
    unicastCopies mode teeNet (hostRun hcfg teeNet noHosts heard) 3 9 f' [(4, .host false)] = 1 := by
  obtain ⟨g, st⟩ := teeUp_settled
  obtain ⟨_, h3, h4⟩ := tee_connected st
  obtain ⟨f, hf⟩ := unicast_in_stack_partial (c := hcfg) st tee_noParallel mode rfl heard_stays (heard_upward st)
    h3 4 h4 false
  exact ⟨f, fun f' h => (hf f' h).2⟩

example : hostRun hcfg teeNet noHosts heard 4 = none ∧ hostRun hcfg teeNet noHosts heard 1 ≠ none := by
  decide +kernel

/-- All four switches know the host. -/
def heardAll : List HEvent := heard ++ [.packet 4 (.stack at4) 6 [1, 2, 3]]

/-- C65: and once all know it, in the other learning mode too. -/
example : ∃ f, ∀ f', f ≤ f' →
    unicastCopies mode teeNet (hostRun hcfg teeNet noHosts heardAll) 3 9 f' [(4, .host false)] = 1 := by
  obtain ⟨g, st⟩ := teeUp_settled
  obtain ⟨_, h3, h4⟩ := tee_connected st
  have hst : ∀ ev ∈ heardAll, StaysAt 3 9 ev := by
    intro ev hev
    rcases List.mem_append.1 hev with h | h
    · exact heard_stays ev h
    · simp only [List.mem_singleton] at h; subst h; trivial
  have hall : ∀ u, Connected (Adj g) u 1 → hostRun hcfg teeNet noHosts heardAll u ≠ none := by
    intro u hu
    have hn := inStack_mem st hu
    rw [← st.graph 1] at hn
    have : ∀ u ∈ (teeNet.graph 1).nodes, hostRun hcfg teeNet noHosts heardAll u ≠ none := by decide +kernel
    exact this u hn
  obtain ⟨f, hf⟩ := known_in_stack_partial (c := hcfg) st (fun h => by cases h) mode hst h3 4 h4 hall false
  exact ⟨f, fun f' h => (hf f' h).2⟩

/-- C65, hears_knows: switch 4 comes to know the host. -/
example : hostStep hcfg teeNet (hostRun hcfg teeNet noHosts heard) (.packet 4 (.stack at4) 6 [1, 2, 3]) 4 ≠ none := by
  obtain ⟨g, st⟩ := teeUp_settled
  obtain ⟨_, h3, h4⟩ := tee_connected st
  exact hears_knows (k := 9) (x := 5) st rfl h3 h4 (by decide) (stays_rightly heard_stays)
    (by decide +kernel) rfl (fun h => by cases h) at4 6 (by simp)

/-- C65, own_port_learned: switch 4 hears the host on its own port. -/
example : ∃ t, hostStep hcfg teeNet (hostRun hcfg teeNet noHosts heardAll) (.packet 4 (.edge 8) 60 [1, 2, 3]) 4 =
    some ⟨.edge 8, t⟩ := own_port_learned _ _ _ 4 8 rfl _ _

/-- C65, reflection_ignored: a reflected copy one second later changes nothing. -/
example : hostStep hcfg teeNet (hostRun hcfg teeNet noHosts heard) (.packet 3 (.stack at3) 6 [1, 2, 4]) =
    hostRun hcfg teeNet noHosts heard :=
  reflection_ignored _ _ _ 3 9 rfl (t := 5) (by decide +kernel) (by decide) (fun _ => ⟨0, rfl, by decide⟩) _

/-- C65, learned_from_stack: the learning of switch 4. -/
example : hostStep hcfg teeNet (hostRun hcfg teeNet noHosts heard) (.packet 4 (.stack at4) 6 [1, 2, 3]) ≠
    hostRun hcfg teeNet noHosts heard := by
  intro h
  have := congrFun h 4
  revert this
  decide +kernel

/-! ## Defects -/

/-- A gap in the line of switches that know a host: switch 2 has forgotten it, as it does when its
port was down for a moment, and the root has not.  A packet to the host from switch 2, next to the
host, is flooded to the root for reflection; the root knows the host beyond the port the packet came
from, and a switch does not send a packet back where it came from.  The packet is lost. -/
theorem gap_defect :
    unicastCopies mode teeNet (hostRun hcfg teeNet noHosts (heard ++ [.forget 2])) 3 9 20 [(2, .host false)] = 0 ∧
    unicastFlight mode teeNet (hostRun hcfg teeNet noHosts (heard ++ [.forget 2])) 20 [(2, .host false)] = [] := by
  decide +kernel

/-- A host moves from switch 3 to switch 4.  Switch 3 hears its first packet within two seconds and
takes it for a reflection; so it keeps its own entry, and the root, which asks the other switches in
no particular order, believes switch 3.  Packets to the host from the root do not arrive. -/
theorem moved_host_defect :
    unicastCopies mode teeNet (hostRun hcfg teeNet noHosts
      [.packet 3 (.edge 9) 5 [], .packet 4 (.edge 8) 6 [], .packet 3 (.stack at3) 6 [1, 2, 4],
       .packet 1 (.stack at4) 6 [2, 3, 4]]) 4 8 20 [(1, .host false)] = 0 := by
  decide +kernel

/-- A host moves from switch 4, which has not heard of it since, to switch 3.  Three seconds after
switch 3 learned it, a packet of the host to an unknown destination comes back from the root; switch 3
then believes switch 4 and forgets the host on its own port. -/
theorem reflected_copy_moves_host_defect :
    hostRun hcfg teeNet noHosts
      [.packet 4 (.edge 8) 5 [], .packet 3 (.edge 9) 20 [], .packet 3 (.stack at3) 23 [1, 2, 4]] 3 =
      some ⟨.stack at3, 23⟩ ∧
    unicastCopies mode teeNet (hostRun hcfg teeNet noHosts
      [.packet 4 (.edge 8) 5 [], .packet 3 (.edge 9) 20 [], .packet 3 (.stack at3) 23 [1, 2, 4]])
      3 9 20 [(3, .host false)] = 0 := by
  decide +kernel

/-- Two switches joined by two links: floods use both links and only broadcasts are filtered on the
second.  A packet to a host nobody knows yet arrives twice, with and without reflection. -/
theorem parallel_unknown_defect :
    unicastCopies mode (triUp.net tri 1) noHosts 2 9 20 [(1, .host false)] = 2 ∧
    unicastCopies ⟨false, fun _ => false, fun _ => true⟩ (triUp.net tri 1) noHosts 2 9 20 [(1, .host false)] = 2 := by
  decide +kernel

end Faucet.Stack.Ex
