import Verif.Tunnel.Source
import Verif.Tunnel.Vids
import Verif.Dot1x.Lemmas
import Verif.Acl.Examples

/-! # Tunnels: cases that meet the hypotheses, and defects -/

namespace Faucet.Tunnel.Ex
open Faucet.OF Faucet.Acl Faucet.Stack Faucet.Tunnel

/-! ## Three switches in a line -/

def ports : Nat → List SPort
  | 1 => [⟨10, 2, 11, true, true⟩]
  | 2 => [⟨12, 3, 13, true, true⟩, ⟨11, 1, 10, true, true⟩]
  | 3 => [⟨13, 2, 12, true, true⟩]
  | _ => []

def line : Graph := ⟨[1, 2, 3], [⟨1, 10, 2, 11⟩, ⟨2, 12, 3, 13⟩]⟩

def net : Net := ⟨ports, fun _ => line, fun _ => 1⟩

theorem line_adj {u v : Nat} (h : Adj line u v) : (u, v) ∈ [(1, 2), (2, 1), (2, 3), (3, 2)] := by
  unfold Adj adj at h
  simp [line] at h
  rcases h with (⟨rfl, rfl⟩ | ⟨rfl, rfl⟩) | (⟨rfl, rfl⟩ | ⟨rfl, rfl⟩) <;> decide

theorem shared : Shared net line := by
  refine ⟨by unfold Wf; decide, fun _ => rfl, ?_⟩
  intro u v h
  have := line_adj h
  simp only [List.mem_cons, Prod.mk.injEq, List.not_mem_nil, or_false] at this
  rcases this with ⟨rfl, rfl⟩ | ⟨rfl, rfl⟩ | ⟨rfl, rfl⟩ | ⟨rfl, rfl⟩
  · exact ⟨⟨10, 2, 11, true, true⟩, by simp [net, ports], rfl, rfl⟩
  · exact ⟨⟨11, 1, 10, true, true⟩, by simp [net, ports], rfl, rfl⟩
  · exact ⟨⟨12, 3, 13, true, true⟩, by simp [net, ports], rfl, rfl⟩
  · exact ⟨⟨13, 2, 12, true, true⟩, by simp [net, ports], rfl, rfl⟩

theorem ports_cases (u : Nat) : (u = 1 ∨ u = 2 ∨ u = 3) ∨ net.ports u = [] := by
  by_cases h1 : u = 1
  · simp [h1]
  · by_cases h2 : u = 2
    · simp [h2]
    · by_cases h3 : u = 3
      · simp [h3]
      · right
        show ports u = []
        unfold ports
        split <;> simp_all

theorem cabled : Cabled net := by
  refine ⟨?_, ?_, ?_⟩
  · intro u
    rcases ports_cases u with (rfl | rfl | rfl) | h
    · decide
    · decide
    · decide
    · rw [h]; decide
  · intro u
    rcases ports_cases u with (rfl | rfl | rfl) | h
    · decide
    · decide
    · decide
    · rw [h]; simp
  · intro u
    rcases ports_cases u with (rfl | rfl | rfl) | h
    · decide
    · decide
    · decide
    · rw [h]; simp

theorem conn13 : Connected (Adj line) 1 3 :=
  ⟨[1, 2, 3], .step (v := 2) (by unfold Adj; decide) (.step (v := 3) (by unfold Adj; decide) (.refl 3))⟩

theorem conn31 : Connected (Adj line) 3 1 :=
  ⟨[3, 2, 1], .step (v := 2) (by unfold Adj; decide) (.step (v := 1) (by unfold Adj; decide) (.refl 1))⟩

/-! ## A tunnel from port 1 of switch 1 to port 5 of switch 3 -/

def actsEx : Actions := { output := some (.dict { tunnel := some 200 }) }
/-- IPv4 packets take the tunnel. -/
def rTun : Rule := { fields := [(.new fEthType, .int 0x800)], actions := some actsEx }
def dst : Dest := { dp := 3, port := some 5, biDir := true }
def src : Source := ⟨1, some 1⟩
def tacl : TAcl := ⟨⟨[rTun], false⟩, [(200, dst)], [src]⟩
def tab : Table := ⟨0, 7⟩

/-- What the controller sends to each switch. -/
def sent (u : Nat) : List OfMsg := ((update encEx mgrEx net u 5 tab tacl (fun _ _ => none)).map (·.2)).getD []

/-- The switches after that. -/
def sws (u : Nat) : Switch := emptySw.execAll (sent u)

theorem upd (u : Nat) (h : u = 1 ∨ u = 2 ∨ u = 3) : ∃ dyn, update encEx mgrEx net u 5 tab tacl (fun _ _ => none) = some (dyn, sent u) := by
  have : (update encEx mgrEx net u 5 tab tacl (fun _ _ => none)).isSome = true := by
    rcases h with rfl | rfl | rfl <;> decide +kernel
  obtain ⟨x, hx⟩ := Option.isSome_iff_exists.1 this
  exact ⟨x.1, by rw [sent, hx]; rfl⟩

theorem wired : Wired tacl := by
  refine ⟨by decide, by decide, ?_, by decide⟩
  intro e he
  simp only [tacl, List.mem_singleton] at he
  subst he
  intro a ha
  cases ha

/-- Every flow was added by one of the messages. -/
def addedOk (P : FlowMod → Bool) (ms : List OfMsg) : Bool :=
  ms.all (fun m => match m with | .flow f => f.cmd ≠ .modifyStrict && (f.cmd ≠ .add || P f) | _ => true)

theorem added_of {P : FlowMod → Bool} {ms : List OfMsg} (h : addedOk P ms = true) {s : Slot} {b : Body}
    (hs : (emptySw.execAll ms).flows s = some b) : ∃ f, f.slot = s ∧ f.body = b ∧ P f = true := by
  have ht : ∀ m ∈ ms, Dot1x.Tame m s := by
    intro m hm
    refine .inr ?_
    rintro f rfl
    have := List.all_eq_true.1 h _ hm
    simp only [Bool.and_eq_true, decide_eq_true_eq] at this
    exact this.1
  rcases Dot1x.origin ht _ _ hs with ⟨f, h1, h2, h3, h4⟩ | ⟨h1, _⟩
  · have := List.all_eq_true.1 h _ h1
    simp only [h2, Bool.and_eq_true, decide_eq_true_eq, Bool.or_eq_true] at this
    exact ⟨f, h3, h4, this.2.resolve_left (by simp)⟩
  · cases h1

theorem alone (flag : Nat) (hf : flag = 3 ∨ flag = 4) (u : Nat) (h : u = 1 ∨ u = 2 ∨ u = 3) : Alone (sws u) 0 200 flag (net.ports u) := by
  intro s b hs ht hp
  have : addedOk (fun f => decide (f.slot.priority < Dot1x.overridePriority) ||
      decide (f.slot = ⟨0, Dot1x.overridePriority, tunnelItems 200 3⟩) ||
      decide (f.slot = ⟨0, Dot1x.overridePriority, tunnelItems 200 4⟩)) (sent u) = true := by
    rcases h with rfl | rfl | rfl <;> decide +kernel
  obtain ⟨f, h1, _, h2⟩ := added_of this hs
  subst h1
  simp only [Bool.or_eq_true, decide_eq_true_eq] at h2
  rcases h2 with (h2 | h2) | h2
  · omega
  · rcases hf with rfl | rfl
    · exact .inl h2
    · refine .inr ?_
      intro p hp1 _
      rw [h2]
      cases htags : p.tags with
      | nil => rw [htags] at hp1; cases hp1
      | cons x l =>
        rw [htags] at hp1
        injection hp1 with hp1
        subst hp1
        simp [hitsAll, tunnelItems, MatchItem.hits, Pkt.field, htags, fVlanVid, fVlanPcp, maskEq]
  · rcases hf with rfl | rfl
    · refine .inr ?_
      intro p hp1 _
      rw [h2]
      cases htags : p.tags with
      | nil => rw [htags] at hp1; cases hp1
      | cons x l =>
        rw [htags] at hp1
        injection hp1 with hp1
        subst hp1
        simp [hitsAll, tunnelItems, MatchItem.hits, Pkt.field, htags, fVlanVid, fVlanPcp, maskEq]
    · exact .inl h2

/-- The hypotheses of `update_installs` on each switch. -/
theorem installed (u : Nat) (h : u = 1 ∨ u = 2 ∨ u = 3) (hu : u ≠ 1) {l : List OutAct} (hl : fwd net u 5 200 dst src = some l) :
    HasRule (sws u) 0 200 3 l := by
  obtain ⟨dyn, hd⟩ := upd u h
  refine update_installs encEx_ok hd wired (by simp [mgrEx]) ?_ ?_ (d := dst) (by simp [tacl]) (s := src) (by simp [tacl])
    (fun h => hu h.symm) hl emptySw
  · intro s hs _
    simp only [tacl, List.mem_singleton] at hs
    subst hs
    simp [src]
  · intro r hr
    simp only [tacl, List.mem_singleton] at hr
    subst hr
    unfold Unambiguous
    decide

/-- The hypotheses of `update_installs_back`. -/
theorem installed_back (u : Nat) (h : u = 1 ∨ u = 2 ∨ u = 3) {l : List OutAct} (hl : rev net u 5 dst src = some l) :
    HasRule (sws u) 0 200 4 l := by
  obtain ⟨dyn, hd⟩ := upd u h
  refine update_installs_back encEx_ok hd wired (by simp [mgrEx]) ?_ ?_ (d := dst) (by simp [tacl]) (s := src) (by simp [tacl])
    hl emptySw
  · intro s hs _
    simp only [tacl, List.mem_singleton] at hs
    subst hs
    simp [src]
  · intro r hr
    simp only [tacl, List.mem_singleton] at hr
    subst hr
    unfold Unambiguous
    decide

/-- The hypotheses of `update_installs_source`. -/
example : ∃ c rules inst items b, c.tunnels = some rules ∧ rules.get? 200 = some (.ordered (encap 200 3 ++ [.port 10] ++ [.popVlans 1])) ∧
    c.allowTable = 1 ∧ c.forceTable = 5 ∧ ruleInst c rTun = some (inst, []) ∧ matchFromDict encEx (withPort (some 1) rTun.fields) = some items ∧
    (sws 1).flows ⟨0, aclPriority - tacl.acl.rules.idxOf rTun, items⟩ = some b ∧ b.inst = trimInst inst := by
  obtain ⟨dyn, hd⟩ := upd 1 (by simp)
  refine update_installs_source encEx_ok hd wired (by simp [mgrEx]) ?_ ?_ ?_ rfl (d := dst) (by simp [tacl]) (s := src) (by simp [tacl]) rfl
    (by decide +kernel) ?_ (by decide) (by simp [tacl]) rfl ⟨.inl rfl, rfl, rfl, rfl⟩ ?_ emptySw
  · intro s hs _
    simp only [tacl, List.mem_singleton] at hs
    subst hs
    simp [src]
  · intro s hs s' hs' _ _ _
    simp only [tacl, List.mem_singleton] at hs hs'
    rw [hs, hs']
  · intro r hr
    simp only [tacl, List.mem_singleton] at hr
    subst hr
    unfold Unambiguous
    decide
  · intro a ha t
    simp only [encap, List.mem_append, List.mem_cons, List.not_mem_nil, or_false] at ha
    rcases ha with ((rfl | rfl) | rfl) | rfl <;> simp
  · intro r' hr' hne
    simp only [tacl, List.mem_singleton] at hr'
    exact absurd hr' hne

/-- An IPv4 packet with two tags from port 1. -/
def pkt : Pkt := ⟨fun f => if f = fInPort then some 1 else if f = fEthType then some 0x800 else none, [(100, 0), (7, 2)]⟩

def aclSlot : Slot := ⟨0, aclPriority, [⟨fInPort, 1, none⟩, ⟨fEthType, 0x800, none⟩]⟩

def srcCtxEx : Ctx := srcCtx mgrEx tab tacl (updDyn net 1 5 tacl (fun _ _ => none)) src (some 1) false

theorem pkt_picks (h : ∃ b, (sws 1).flows aclSlot = some b ∧ ∃ inst ms, ruleInst srcCtxEx rTun = some (inst, ms) ∧ b.inst = trimInst inst) :
    ∃ r inst ms, r.actions = some actsEx ∧ ruleInst srcCtxEx r = some (inst, ms) ∧ Picks (sws 1) 0 pkt (trimInst inst) := by
  obtain ⟨b, hb, inst, ms, hi, hbi⟩ := h
  refine ⟨rTun, inst, ms, rfl, hi, aclSlot, b, ?_, hbi, ?_⟩
  · refine ⟨hb, rfl, by decide, ?_⟩
    intro s' b' hs' ht hh
    have : addedOk (fun f => decide (f.slot = aclSlot) || !hitsAll f.slot.items pkt) (sent 1) = true := by decide +kernel
    obtain ⟨f, rfl, _, h2⟩ := added_of this hs'
    simp only [Bool.or_eq_true, decide_eq_true_eq, Bool.not_eq_true'] at h2
    rcases h2 with h2 | h2
    · rw [h2]
    · rw [h2] at hh; cases hh
  · intro s' b' h'
    have : addedOk (fun f => decide (f.slot = aclSlot) || !hitsAll f.slot.items pkt) (sent 1) = true := by decide +kernel
    obtain ⟨f, rfl, _, h2⟩ := added_of this h'.present
    simp only [Bool.or_eq_true, decide_eq_true_eq, Bool.not_eq_true'] at h2
    rcases h2 with h2 | h2
    · exact h2
    · have := h'.hits
      rw [h2] at this
      cases this

theorem three {u : Nat} (h : u ∈ shortestPath line 1 3) : u = 1 ∨ u = 2 ∨ u = 3 := by
  have : shortestPath line 1 3 = [1, 2, 3] := by decide +kernel
  rw [this] at h
  simpa using h

theorem three' {u : Nat} (h : u ∈ shortestPath line 3 1) : u = 1 ∨ u = 2 ∨ u = 3 := by
  have : shortestPath line 3 1 = [3, 2, 1] := by decide +kernel
  rw [this] at h
  simp only [List.mem_cons, List.not_mem_nil, or_false] at h
  tauto

theorem entered : Entered sws 0 5 200 net line dst src pkt srcCtxEx actsEx := by
  refine ⟨shared, cabled, by decide, conn13, by decide, ?_, by decide, ?_, ?_, ?_, ?_, ?_⟩
  · intro u hu hne
    exact ⟨alone 3 (.inl rfl) u (three hu), fun l hl => installed u (three hu) hne hl⟩
  · intro o ho
    injection ho with ho
    subst ho
    exact ⟨by decide, by decide, by decide⟩
  · exact ⟨.inl rfl, rfl, rfl, rfl⟩
  · exact ⟨_, _, rfl, rfl, rfl⟩
  · exact pkt_picks ⟨_, rfl, _, _, rfl, by decide +kernel⟩
  · decide

/-- The hypotheses of `tunnel_delivers` are met. -/
example : ∃ hdr, (∀ f, f ≠ fInPort → f ≠ fMetadata → hdr f = pkt.hdr f) ∧
    Delivered sws 0 net (shortestPath line 1 3) 1 pkt (fun es => es = [⟨5, [(100, 0), (7, 2)], hdr⟩]) :=
  tunnel_delivers entered rfl rfl rfl

/-- A packet on the way back, from port 5 of switch 3. -/
def pktBack : Pkt := ⟨fun f => if f = fInPort then some 5 else if f = fEthType then some 0x800 else none, [(200, 4), (9, 1)]⟩

/-- The hypotheses of `tunnel_back` are met. -/
example : ∃ hdr, (∀ f, f ≠ fInPort → f ≠ fMetadata → hdr f = pktBack.hdr f) ∧
    Delivered sws 0 net (shortestPath line 3 1) 3 pktBack (fun es => es = [⟨1, [(9, 1)], hdr⟩]) := by
  refine tunnel_back (l2 := 5) (vid := 200) (d := dst) (s := src) shared cabled rfl (by decide) conn31 (by decide) ?_ ?_ (by decide) rfl rfl
    (by decide) (by decide) (by decide)
  · intro u hu hne
    exact ⟨alone 4 (.inr rfl) u (three' hu), fun l hl => installed_back u (three' hu) hl⟩
  · intro l hl
    obtain ⟨b, hb1, hb2⟩ := installed_back 3 (by simp) hl
    have hall : addedOk (fun f => decide (f.slot = ⟨0, Dot1x.overridePriority, tunnelItems 200 4⟩) || !hitsAll f.slot.items pktBack) (sent 3) = true := by
      decide +kernel
    refine ⟨_, b, ⟨hb1, rfl, by decide, ?_⟩, hb2, ?_⟩
    · intro s' b' hs' _ hh
      obtain ⟨f, rfl, _, h2⟩ := added_of hall hs'
      simp only [Bool.or_eq_true, decide_eq_true_eq, Bool.not_eq_true'] at h2
      rcases h2 with h2 | h2
      · rw [h2]
      · rw [h2] at hh; cases hh
    · intro s' b' h'
      obtain ⟨f, rfl, _, h2⟩ := added_of hall h'.present
      simp only [Bool.or_eq_true, decide_eq_true_eq, Bool.not_eq_true'] at h2
      rcases h2 with h2 | h2
      · exact h2
      · have := h'.hits
        rw [h2] at this
        cases this

/-! ## A tunnel within switch 1 -/

def dNear : Dest := { dp := 1, port := some 5 }
def taclNear : TAcl := ⟨⟨[rTun], false⟩, [(200, dNear)], [src]⟩
def sentNear : List OfMsg := ((update encEx mgrEx net 1 5 tab taclNear (fun _ _ => none)).map (·.2)).getD []
def ctxNear : Ctx := srcCtx mgrEx tab taclNear (updDyn net 1 5 taclNear (fun _ _ => none)) src (some 1) false

/-- The hypotheses of `tunnel_single` are met. -/
example (es : List Emit) : Proc (emptySw.execAll sentNear) 0 pkt es ↔ es = [⟨5, [(100, 0), (7, 2)], pkt.hdr⟩] := by
  have hall : addedOk (fun f => decide (f.slot = aclSlot)) sentNear = true := by decide +kernel
  obtain ⟨b, hb, hbi⟩ : ∃ b, (emptySw.execAll sentNear).flows aclSlot = some b ∧ b.inst = trimInst [.apply [.output 5]] :=
    ⟨_, rfl, by decide +kernel⟩
  refine tunnel_single (n := net) (l2 := 5) (vid := 200) (d := dNear) (s := src) (a := actsEx) (r := rTun) (c := ctxNear) shared rfl (by decide) rfl
    (by decide) (by decide) (by decide) (by decide) rfl rfl ⟨.inl rfl, rfl, rfl, rfl⟩ rfl rfl rfl rfl
    (inst := [.apply [.output 5]]) (ms := []) (by decide +kernel) ?_ es
  refine ⟨aclSlot, b, ⟨hb, rfl, by decide, ?_⟩, hbi, ?_⟩
  · intro s' b' hs' _ hh
    obtain ⟨f, rfl, _, h2⟩ := added_of hall hs'
    rw [of_decide_eq_true h2]
  · intro s' b' h'
    obtain ⟨f, rfl, _, h2⟩ := added_of hall h'.present
    exact of_decide_eq_true h2

/-! ## Defects -/

/-- The tunnel, with a second source. -/
def twoSrc : TAcl := { tacl with sources := [⟨1, some 1⟩, ⟨2, some 2⟩] }

/-- Two sources of a bi-directional tunnel: the rule of the way back is the one to the last source, so nothing comes back to
the first (valve_stack.py 413-417). -/
theorem reverse_two_sources_defect :
    (rev net 2 5 dst ⟨1, some 1⟩ = some [.port 11]) ∧ (rev net 2 5 dst ⟨2, some 2⟩ = some [.popVlans 1, .port 2]) ∧
    ∃ ms, (update encEx mgrEx net 2 5 tab twoSrc (fun _ _ => none)).map (·.2) = some ms ∧
      ((emptySw.execAll ms).flows ⟨0, Dot1x.overridePriority, tunnelItems 200 4⟩).map (·.inst) =
        some (trimInst (tunnelInst [.popVlans 1, .port 2])) := by
  refine ⟨by decide +kernel, by decide +kernel, _, rfl, by decide +kernel⟩

/-- The link between switch 1 and 2 is gone. -/
def broken : Net := ⟨ports, fun _ => ⟨[1, 2, 3], [⟨2, 12, 3, 13⟩]⟩, fun _ => 1⟩

/-- The source switch loses the path: nothing is updated, and the rule that sends packets into the gone link stays
(valve_stack.py 374-386). -/
theorem stale_rule_defect : fwd broken 1 5 200 dst src = none ∧ fwd broken 2 5 200 dst src = none ∧
    (∀ dyn, (update encEx mgrEx broken 1 5 tab tacl dyn).map (·.2) = some []) ∧
    ∀ dyn, (update encEx mgrEx broken 2 5 tab tacl dyn).map (·.2) = some [] := by
  have h1 : fwd broken 1 5 200 dst src = none := by decide +kernel
  have h2 : fwd broken 2 5 200 dst src = none := by decide +kernel
  refine ⟨h1, h2, ?_, ?_⟩
  · intro dyn
    have h5 : ownPairs broken 1 5 tacl = [] := by decide +kernel
    have h6 : pathMsgs broken 1 5 tab tacl = [] := by decide +kernel
    unfold update
    rw [h5, h6]
    rfl
  · intro dyn
    have h5 : ownPairs broken 2 5 tacl = [] := by decide +kernel
    have h6 : pathMsgs broken 2 5 tab tacl = [] := by decide +kernel
    unfold update
    rw [h5, h6]
    rfl

/-- A packet with the tag of the tunnel from a host of switch 2. -/
def forged : Pkt := ⟨fun f => if f = fInPort then some 7 else none, [(200, 3), (1, 0)]⟩

/-- A host on any port of a transit switch that sends the tag of the tunnel gets its packet into the tunnel: the rule does
not ask where the packet comes from (valve_acl.py 302-309). -/
theorem inject_defect : Proc (sws 2) 0 forged [⟨12, [(200, 3), (1, 0)], forged.hdr⟩] := by
  have hr := installed 2 (by simp) (by decide) (l := [.port 12]) (by decide +kernel)
  obtain ⟨b, hb1, hb2⟩ := hr
  have hall : addedOk (fun f => decide (f.slot = ⟨0, Dot1x.overridePriority, tunnelItems 200 3⟩) || !hitsAll f.slot.items forged) (sent 2) = true := by
    decide +kernel
  have hhit : Hit (sws 2) 0 forged ⟨0, Dot1x.overridePriority, tunnelItems 200 3⟩ b := by
    refine ⟨hb1, rfl, by decide, ?_⟩
    intro s' b' hs' _ hh
    obtain ⟨f, rfl, _, h2⟩ := added_of hall hs'
    simp only [Bool.or_eq_true, decide_eq_true_eq, Bool.not_eq_true'] at h2
    rcases h2 with h2 | h2
    · rw [h2]
    · rw [h2] at hh; cases hh
  have := Proc.done hhit (by rw [hb2]; rfl)
  rw [hb2] at this
  exact this

/-- A tunnel within switch 1 that keeps the tag. -/
def dLocal : Dest := { dp := 1, port := some 5, maintain := true }
def aAllow : Actions := { allow := some 1, output := some (.dict { tunnel := some 200 }) }

/-- A tunnel within one switch that keeps the tag, in a rule that also allows the packet: the packet that goes on in the
VLAN table has the tag of the tunnel (acl.py 736-755). -/
theorem single_maintain_allow_defect :
    fwd net 1 5 200 dLocal src = some (encap 200 3 ++ [.port 5]) ∧
    ∃ inst ms, ruleInst { srcCtxEx with tunnels := some [(200, .ordered (encap 200 3 ++ [.port 5]))] } { rTun with actions := some aAllow } = some (inst, ms) ∧
      instGoto (trimInst inst) = some 1 ∧ (runInst (sws 1) (trimInst inst) pkt).2.tags = [(200, 3), (100, 0), (7, 2)] := by
  refine ⟨by decide +kernel, _, _, rfl, by decide +kernel, by decide +kernel⟩

/-- A tunnel to the switch itself. -/
def dSelf : Dest := { dp := 1, port := none }

/-- A tunnel to the switch itself in a rule that allows the packet: two instructions name a next table, which OpenFlow
does not permit (acl.py 727-732, valve_acl.py 262-264). -/
theorem two_gotos_defect :
    fwd net 1 5 200 dSelf src = some [.goto 5] ∧
    ∃ inst ms, ruleInst { srcCtxEx with tunnels := some [(200, .ordered [.goto 5])] } { rTun with actions := some aAllow } = some (inst, ms) ∧
      (trimInst inst).filter Inst.isGoto = [.goto 5, .goto 1] := by
  refine ⟨by decide +kernel, _, _, rfl, by decide +kernel⟩

/-- Nothing from address 77, the rest takes the tunnel. -/
def rBlock : Rule := { fields := [(.new fEthSrc, .int 77)] }
def rAny : Rule := { actions := some actsEx }
/-- What a port is built with when it comes up, `faucet/valve_acl.py` 482-499: no tunnels, no deletes. -/
def firstCtx : Ctx where
  table := tab
  allowTable := 1
  forceTable := 5
  highest := aclPriority
  exact := false
  port := some 1

def taclBlock : TAcl := ⟨⟨[rBlock, rAny], false⟩, [(200, dst)], [src]⟩
def blockSlot : Slot := ⟨0, aclPriority, [⟨fInPort, 1, none⟩, ⟨fEthSrc, 77, none⟩]⟩

/-- An ACL that blocks a host and sends the rest into a tunnel: when the topology changes the second rule is built again; the
delete before it is not strict and removes the first, which nothing puts back, so the host is no longer blocked
(valve_acl.py 359-361, 802-843). -/
theorem source_rules_defect :
    ∃ before ms, buildAcls encEx firstCtx [taclBlock.acl] = some before ∧
      (update encEx mgrEx net 1 5 tab taclBlock (fun _ _ => none)).map (·.2) = some ms ∧
      ((emptySw.execAll before).flows blockSlot).map (·.inst) = some [] ∧
      ((emptySw.execAll before).execAll ms).flows blockSlot = none ∧ (∀ f, .flow f ∈ ms → f.slot ≠ blockSlot) := by
  refine ⟨_, _, rfl, rfl, by decide +kernel, by decide +kernel, ?_⟩
  intro f hf
  have : ∀ m ∈ ((update encEx mgrEx net 1 5 tab taclBlock (fun _ _ => none)).map (·.2)).getD [],
      (match m with | .flow f => decide (f.slot ≠ blockSlot) | _ => true) = true := by decide +kernel
  have := this _ hf
  simpa using this

/-- An ACL that comes before the one with the tunnel. -/
def aFirst : Acl.Acl := ⟨[rBlock, rBlock], false⟩

/-- A port with two ACLs, the second with a tunnel: at first its rule is below those of the first ACL, when it is built again
for a topology change it is above them (valve_acl.py 822-824). -/
theorem source_priority_defect :
    (∃ before, buildAcls encEx firstCtx [aFirst, tacl.acl] = some before ∧
      ((emptySw.execAll before).flows ⟨0, aclPriority - 2, aclSlot.items⟩).isSome = true ∧
      ((emptySw.execAll before).flows aclSlot).isSome = false ∧
      (((emptySw.execAll before).execAll (sent 1)).flows ⟨0, aclPriority - 2, aclSlot.items⟩).isSome = false ∧
      (((emptySw.execAll before).execAll (sent 1)).flows aclSlot).isSome = true) := by
  refine ⟨_, rfl, by decide +kernel, by decide +kernel, by decide +kernel, by decide +kernel⟩

/-! ### VLAN ids -/

/-- The hypotheses of `vids_agree`: three ACLs with one destination each, in two orders. -/
def aclsOne : List VAcl := [[⟨1, none⟩, ⟨1, none⟩], [], [⟨2, none⟩]]

example : OneDest aclsOne := by
  intro l hl
  simp only [aclsOne, List.mem_cons, List.not_mem_nil, or_false] at hl
  rcases hl with rfl | rfl | rfl
  · exact ⟨1, by simp⟩
  · exact ⟨0, by simp⟩
  · exact ⟨2, by simp⟩

example : (resolveAll aclsOne [0, 1, 2] ⟨[100, 7], []⟩ []).map (fun o => (o.get? 0).map (·.ids)) = some (some [102, 102]) ∧
    (resolveAll aclsOne [2, 0, 1] ⟨[100, 7], []⟩ []).map (fun o => (o.get? 0).map (·.ids)) = some (some [102, 102]) := by decide

/-- ACLs 0 (two destinations) and 1 (one). -/
def aclsTwo : List VAcl := [[⟨1, none⟩, ⟨2, none⟩], [⟨3, none⟩]]

/-- With an ACL of two destinations the order in which a switch comes across the ACLs decides the ids: id 103 is one tunnel
on one switch and another tunnel on the next (dp.py 1081-1127). -/
theorem vids_order_defect :
    (resolveAll aclsTwo [0, 1] ⟨[100], []⟩ []).map (fun o => ((o.get? 0).map (·.dests), (o.get? 1).map (·.dests))) =
      some (some [(102, 1), (103, 2)], some [(104, 3)]) ∧
    (resolveAll aclsTwo [1, 0] ⟨[100], []⟩ []).map (fun o => ((o.get? 0).map (·.dests), (o.get? 1).map (·.dests))) =
      some (some [(102, 1), (104, 2)], some [(103, 3)]) := by decide

/-- Two tunnels of an ACL with the same id and different destinations are accepted; only the second destination is kept,
for both. -/
theorem same_id_defect :
    (resolveAcl [[⟨1, some 200⟩, ⟨2, some 200⟩]] 0 ⟨[100], []⟩).map (fun r => (r.ids, r.dests)) = some ([200, 200], [(200, 2)]) := by
  decide

end Faucet.Tunnel.Ex
