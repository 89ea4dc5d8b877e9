import Verif.Lldp.Props
import Verif.Service.Model

/-!
# Beacons keep a stack link up

FAUCET's service for beacons is called every few seconds, with jitter; it sends when two intervals have passed. The neighbour gives
a link up when it has heard nothing for `max_lldp_lost` times the interval for beacons. Here both ends of a link are put together:
calls of the service, frames on their way, frames that arrive or are lost, LLDP of others, and checks of the link, in any order.
-/

namespace Faucet.Lldp

open Service (BPort BCfg)

/-! ## Model -/

/-- `_last_fast_advertise_sec` and `_last_lldp_advertise_sec`, `faucet/valve.py` 156-157 and 212-213. -/
structure Gate where
  fast : Nat := 0
  lldp : Nat := 0
deriving DecidableEq

/-- The beacons of `fast_advertise`, `faucet/valve.py` 756-785: the ports that are sent on. Times are natural numbers here, in any
unit. LACP is left out. -/
def advertise (shuffle : List BPort → List BPort) (fast : Nat) (c : BCfg) (ps : List BPort) (g : Gate) (now : Nat) : Gate × List BPort :=
  if fast = 0 ∨ now < g.fast + fast then (g, [])
  else if c.sendInterval = 0 ∨ g.lldp + c.sendInterval ≤ now then (⟨now, now⟩, Service.sendPorts shuffle ps c now)
  else (⟨now, g.lldp⟩, [])

/-- A link of a stack in one direction: who sends, and who listens. -/
structure Line where
  /-- the switch that sends -/
  d : Dp
  /-- its port -/
  p : Port
  /-- `fast_advertise_interval` of that switch -/
  fast : Nat := 5
  /-- `lldp_beacon: max_per_interval` of that switch -/
  perInterval : Nat := 5
  shuffle : List BPort → List BPort := id
  /-- `faucet_dp_mac` of the switch that listens -/
  mac : Bytes
  /-- `max_lldp_lost` of the port that listens -/
  maxLost : Nat := 3
  num : Bytes → Nat

/-- What the listening port is configured to expect. -/
def Line.cfg (l : Line) : Stack.LCfg := expects l.num l.d l.p l.d.interval l.maxLost

/-- The frame that is sent while the port has this state. -/
def Line.beacon (l : Line) (st : Stack.LState) : Bytes := frame l.d { l.p with stack := some st.code }

/-- The sender's two times, the beacons under way (when they were sent, oldest first), and the port that listens. -/
structure Way where
  gate : Gate
  flight : List Nat
  link : Stack.LPort
deriving DecidableEq

/-- What happens. -/
inductive Ev where
  /-- the service is called, when the sender's ports are these -/
  | call (now : Nat) (ports : List BPort)
  /-- the oldest beacon under way arrives; it was sent while the port had this state -/
  | arrive (now : Nat) (st : Stack.LState)
  /-- the oldest beacon under way is lost -/
  | lose (now : Nat)
  /-- LLDP from others arrives -/
  | other (now : Nat) (fr : Bytes)
  /-- `fast_state_expire`, the part for the state of the link -/
  | check (now : Nat)
  /-- `fast_state_expire`, the part for `dyn_lldp_beacon_recv_state` -/
  | forget (now : Nat)

def Ev.time : Ev → Nat
  | .call t _ | .arrive t _ | .lose t | .other t _ | .check t | .forget t => t

/-- A frame comes in, `lldp_handler`, `faucet/valve.py` 1006-1074. -/
def Line.recv (l : Line) (now : Nat) (fr : Bytes) (q : Stack.LPort) : Option Stack.LPort :=
  match hear l.mac fr with
  | none => some q
  | some i => Stack.lldpRecv l.cfg now (i.toLink l.num) q

/-- The sender's side of a call. -/
def Line.send (l : Line) (now : Nat) (ports : List BPort) (w : Way) : Way :=
  let r := advertise l.shuffle l.fast ⟨l.d.interval, l.perInterval⟩ ports w.gate now
  ⟨r.1, if r.2.any (fun q => q.number == l.p.number) then w.flight ++ [now] else w.flight, w.link⟩

/-- One event; `none` if the controller dies. -/
def Line.step (l : Line) (w : Way) : Ev → Option Way
  | .call now ports => some (l.send now ports w)
  | .arrive now st => (l.recv now (l.beacon st) w.link).map (fun q => ⟨w.gate, w.flight.drop 1, q⟩)
  | .lose _ => some ⟨w.gate, w.flight.drop 1, w.link⟩
  | .other now fr => (l.recv now fr w.link).map (fun q => ⟨w.gate, w.flight, q⟩)
  | .check now => (Stack.portUpdate l.cfg now w.link).map (fun q => ⟨w.gate, w.flight, q⟩)
  | .forget _ => some ⟨w.gate, w.flight, ⟨w.link.state, w.link.probe, none⟩⟩

def Line.run (l : Line) : Way → List Ev → Option Way
  | w, [] => some w
  | w, e :: es => (l.step w e).bind (fun w' => l.run w' es)

/-! ## Specification: a healthy link -/

/-- How long things take: the service is called at least `L` and at most `T` after the last call, beacons are under way for at most
`δ`, and at most `k` in a row are lost. -/
structure Pace where
  L : Nat
  T : Nat
  δ : Nat
  k : Nat

/-- The time, the time of the last call, and how many beacons were lost since one arrived. -/
structure Watch where
  clock : Nat
  call : Nat
  lost : Nat

def Watch.next (c : Watch) : Ev → Watch
  | .call now _ => ⟨now, now, c.lost⟩
  | .arrive now _ => ⟨now, c.call, 0⟩
  | .lose now => ⟨now, c.call, c.lost + 1⟩
  | e => ⟨e.time, c.call, c.lost⟩

/-- The event is one of a healthy link. -/
def Healthy (l : Line) (pc : Pace) (c : Watch) (w : Way) (e : Ev) : Prop :=
  c.clock ≤ e.time ∧ e.time ≤ c.call + pc.T ∧ (∀ s ∈ w.flight, e.time ≤ s + pc.δ) ∧
  match e with
  | .call now ports => c.call + pc.L ≤ now ∧
      ∃ b ∈ ports, b.number = l.p.number ∧ b.stack = true ∧ b.running = true ∧ b.beacon = true
  | .arrive _ _ => w.flight ≠ []
  | .lose _ => w.flight ≠ [] ∧ c.lost < pc.k
  | .other _ fr => ∀ ts, readLldp (fr.take 128) = some ts → ∀ t ∈ ts, t.1 = 127 → t.2.take 3 ≠ l.mac.take 3
  | _ => True

/-- All events are. -/
def AllHealthy (l : Line) (pc : Pace) : Watch → Way → List Ev → Prop
  | _, _, [] => True
  | c, w, e :: es => Healthy l pc c w e ∧ ∀ w', l.step w e = some w' → AllHealthy l pc (c.next e) w' es

/-- By how much the last call may come after the last beacon: not at all if both intervals have always passed between calls; by the
interval of the service if the other is not longer; in general, by both. -/
def Slack (l : Line) (pc : Pace) (B : Nat) : Prop :=
  (l.d.interval ≤ pc.L ∧ l.fast ≤ pc.L ∧ B = 0) ∨ (l.d.interval ≤ l.fast ∧ B = l.fast) ∨ B = l.d.interval + l.fast

/-! ## Proof -/

theorem recv_beacon {l : Line} (hm : l.d.mac.length = 6) (hl : ∀ st, (l.beacon st).length ≤ 128) (ha : Apart l.d l.p)
    (ho : l.mac.take 3 = l.d.mac.take 3) (hn : systemName l.d l.p = l.d.name) (hid : l.d.dpId ≠ 0) (hp : l.p.number ≠ 0)
    (hi : 0 < l.maxLost * l.d.interval) (now : Nat) (st : Stack.LState) {q : Stack.LPort} (hq : q.state ≠ .adminDown) :
    l.recv now (l.beacon st) q = some ⟨.up, some (now, true), some st.code⟩ := by
  have h := beacon_identifies_sender_partial (d := l.d) (p := { l.p with stack := some st.code }) hm (hl st) ha ho
  unfold Line.recv
  unfold Line.beacon
  rw [h]
  have hn' : systemName l.d { l.p with stack := some st.code } = l.d.name := hn
  rw [hn']
  have e : Info.toLink l.num ⟨some (l.d.dpId : Int), some l.d.name, some (l.p.number : Int), some st.code⟩
      = Stack.beacon l.d.dpId (l.num l.d.name) none l.p.number st := rfl
  show Stack.lldpRecv l.cfg now (Info.toLink l.num ⟨some (l.d.dpId : Int), some l.d.name, some (l.p.number : Int), some st.code⟩) q = _
  rw [e]
  have h1 : Stack.logRaises (Stack.beacon l.d.dpId (l.num l.d.name) none l.p.number st) q = false := by
    unfold Stack.logRaises Stack.beacon
    have : Stack.knownState st.code = true := by cases st <;> rfl
    simp [this]
  have h2 : Stack.fromFaucet (Stack.beacon l.d.dpId (l.num l.d.name) none l.p.number st) = true := by
    simp [Stack.fromFaucet, Stack.beacon, hid, hp]
  unfold Stack.lldpRecv
  rw [h1, h2]
  simp only [Bool.false_eq_true, if_false, if_true]
  unfold Stack.verifyLldp Stack.portUpdate
  dsimp only
  split
  · rename_i h; exact absurd h hq
  · have : (0 : Int) < l.cfg.maxLost * l.cfg.interval := by
      show (0 : Int) < (l.maxLost : Int) * (l.d.interval : Int)
      exact_mod_cast hi
    rw [if_pos (by omega)]
    simp [Stack.beacon, Line.cfg, expects]

theorem recv_other {l : Line} {fr : Bytes}
    (h : ∀ ts, readLldp (fr.take 128) = some ts → ∀ t ∈ ts, t.1 = 127 → t.2.take 3 ≠ l.mac.take 3) (now : Nat) (q : Stack.LPort) :
    ∃ q', l.recv now fr q = some q' ∧ q'.state = q.state ∧ q'.probe = q.probe := by
  unfold Line.recv
  cases hr : readLldp (fr.take maxLen) with
  | none =>
    have : hear l.mac fr = none := by unfold hear; rw [hr]; rfl
    rw [this]
    exact ⟨q, rfl, rfl, rfl⟩
  | some ts =>
    rw [others_say_nothing hr (h ts hr)]
    exact ⟨⟨q.state, q.probe, none⟩, rfl, rfl, rfl⟩

/-- Beacons under way after one sent at `x`, each at most `G` after the one before it, the last sent at `z`. -/
def Linked (G : Nat) : Nat → List Nat → Nat → Prop
  | x, [], z => x = z
  | x, y :: r, z => y ≤ x + G ∧ Linked G y r z

theorem linked_snoc {G : Nat} : ∀ {x : Nat} {f : List Nat} {z t : Nat}, Linked G x f z → t ≤ z + G → Linked G x (f ++ [t]) t
  | _, [], _, _, h, ht => ⟨by rw [show _ = _ from h]; exact ht, rfl⟩
  | _, _ :: _, _, _, h, ht => ⟨h.1, linked_snoc h.2 ht⟩

/-- The sender's two times and the last call. -/
def GateOk (l : Line) (pc : Pace) (call : Nat) (g : Gate) : Prop :=
  call ≤ g.fast + l.fast ∧ g.fast ≤ g.lldp + l.d.interval ∧ g.lldp ≤ g.fast ∧ g.fast ≤ call ∧
  (l.d.interval ≤ l.fast → g.fast = g.lldp) ∧ (l.d.interval ≤ pc.L → l.fast ≤ pc.L → call = g.lldp)

theorem gateOk_slack {l : Line} {pc : Pace} {call : Nat} {g : Gate} (h : GateOk l pc call g) {B : Nat} (hB : Slack l pc B) :
    call ≤ g.lldp + B := by
  obtain ⟨h1, h2, h3, h4, h5, h6⟩ := h
  rcases hB with ⟨a, b, rfl⟩ | ⟨a, rfl⟩ | rfl
  · have := h6 a b; omega
  · have := h5 a; omega
  · omega

theorem priority_sent {shuffle : List BPort → List BPort} {ps : List BPort} {c : BCfg} {now n : Nat}
    (h : ∃ b ∈ ps, b.number = n ∧ b.stack = true ∧ b.running = true ∧ b.beacon = true) :
    (Service.sendPorts shuffle ps c now).any (fun q => q.number == n) = true := by
  obtain ⟨b, hb, h1, h2, h3, h4⟩ := h
  rw [List.any_eq_true]
  refine ⟨b, ?_, by simp [h1]⟩
  unfold Service.sendPorts Service.priorityPorts
  exact List.mem_append_left _ (List.mem_filter.2 ⟨hb, by simp [h2, h3, h4]⟩)

/-- A call: either the last beacon stays the last, or one is sent now. -/
theorem call_gate {l : Line} {pc : Pace} {call now : Nat} {w : Way} (hf : 0 < l.fast) (hg : GateOk l pc call w.gate) (hc : call + pc.L ≤ now)
    {ports : List BPort} (hp : ∃ b ∈ ports, b.number = l.p.number ∧ b.stack = true ∧ b.running = true ∧ b.beacon = true) :
    GateOk l pc now (l.send now ports w).gate ∧ (l.send now ports w).link = w.link ∧
    (((l.send now ports w).gate.lldp = w.gate.lldp ∧ (l.send now ports w).flight = w.flight) ∨
      ((l.send now ports w).gate.lldp = now ∧ (l.send now ports w).flight = w.flight ++ [now])) := by
  obtain ⟨h1, h2, h3, h4, h5, h6⟩ := hg
  by_cases c1 : l.fast = 0 ∨ now < w.gate.fast + l.fast
  · have e : l.send now ports w = w := by
      unfold Line.send advertise
      rw [if_pos c1]
      rfl
    rw [e]
    refine ⟨⟨by omega, h2, h3, by omega, h5, fun a b => ?_⟩, rfl, .inl ⟨rfl, rfl⟩⟩
    have := h6 a b; omega
  · by_cases c2 : l.d.interval = 0 ∨ w.gate.lldp + l.d.interval ≤ now
    · have e : l.send now ports w = ⟨⟨now, now⟩, w.flight ++ [now], w.link⟩ := by
        unfold Line.send advertise
        rw [if_neg c1]
        dsimp only
        rw [if_pos c2]
        dsimp only
        rw [priority_sent hp]
        rfl
      rw [e]
      exact ⟨⟨by dsimp only; omega, by dsimp only; omega, le_refl _, le_refl _, fun _ => rfl, fun _ _ => rfl⟩, rfl, .inr ⟨rfl, rfl⟩⟩
    · have e : l.send now ports w = ⟨⟨now, w.gate.lldp⟩, w.flight, w.link⟩ := by
        unfold Line.send advertise
        rw [if_neg c1]
        dsimp only
        rw [if_neg c2]
        rfl
      rw [e]
      refine ⟨⟨by dsimp only; omega, by dsimp only; omega, by dsimp only; omega, le_refl _, fun a => ?_, fun a b => ?_⟩, rfl, .inl ⟨rfl, rfl⟩⟩
      · have := h5 a; dsimp only; omega
      · have := h6 a b; dsimp only; omega

/-- What holds at all times; `up` says whether a beacon has arrived. -/
structure Inv (l : Line) (pc : Pace) (G : Nat) (c : Watch) (w : Way) (up : Prop) : Prop where
  gate : GateOk l pc c.call w.gate
  clock : c.call ≤ c.clock
  lost : c.lost ≤ pc.k
  past : ∀ s ∈ w.flight, s ≤ c.clock
  admin : w.link.state ≠ .adminDown
  chain : ∃ x a, Linked G x w.flight w.gate.lldp ∧ x ≤ a + c.lost * G ∧
    (up → w.link.state = .up ∧ ∃ h : Nat, w.link.probe = some ((h : Int), true) ∧ a ≤ h)

/-- What is expected of the configuration. -/
structure Sound (l : Line) : Prop where
  mac : l.d.mac.length = 6
  length : ∀ st, (frame l.d { l.p with stack := some (Stack.LState.code st) }).length ≤ 128
  apart : Apart l.d l.p
  vendor : l.mac.take 3 = l.d.mac.take 3
  name : systemName l.d l.p = l.d.name
  dpId : l.d.dpId ≠ 0
  port : l.p.number ≠ 0
  fast : 0 < l.fast

theorem inv_step {l : Line} (hl : Sound l) {pc : Pace} {B : Nat} (hB : Slack l pc B)
    (hb : (pc.k + 1) * (B + pc.T) + pc.δ < l.maxLost * l.d.interval) {c : Watch} {w : Way} {up : Prop} (hi : Inv l pc (B + pc.T) c w up) {e : Ev}
    (he : Healthy l pc c w e) :
    ∃ w', l.step w e = some w' ∧ Inv l pc (B + pc.T) (c.next e) w' (up ∨ ∃ now st, e = .arrive now st) := by
  obtain ⟨hg, hcl, hlo, hpa, had, x, a, hch, hx, hup⟩ := hi
  obtain ⟨t1, t2, t3, he⟩ := he
  have hs := gateOk_slack hg hB
  have hno : ∀ {e : Ev}, (∀ now st, e ≠ .arrive now st) → (up ∨ ∃ now st, e = .arrive now st) → up := by
    intro e h h'
    rcases h' with h' | ⟨n, s, h'⟩
    · exact h'
    · exact absurd h' (h n s)
  cases e with
  | call now ports =>
    have t1 : c.clock ≤ now := t1
    have t2 : now ≤ c.call + pc.T := t2
    obtain ⟨g1, g2, g3⟩ := call_gate hl.fast hg he.1 he.2
    refine ⟨_, rfl, ⟨g1, le_refl _, hlo, ?_, by rw [g2]; exact had, ?_⟩⟩
    · intro s hs'
      rcases g3 with g3 | g3
      · rw [g3.2] at hs'; exact le_trans (hpa s hs') t1
      · rw [g3.2] at hs'
        rcases List.mem_append.1 hs' with h | h
        · exact le_trans (hpa s h) t1
        · rw [List.mem_singleton.1 h]; exact le_refl _
    · refine ⟨x, a, ?_, hx, fun u => by rw [g2]; exact hup (hno (fun _ _ h => by cases h) u)⟩
      rcases g3 with g3 | g3
      · rw [g3.1, g3.2]; exact hch
      · rw [g3.1, g3.2]; exact linked_snoc hch (by omega)
  | arrive now st =>
    have t1 : c.clock ≤ now := t1
    have hpos : 0 < l.maxLost * l.d.interval := by omega
    have hr := recv_beacon hl.mac hl.length hl.apart hl.vendor hl.name hl.dpId hl.port hpos now st had
    unfold Line.step
    dsimp only
    rw [hr]
    refine ⟨_, rfl, ⟨hg, le_trans hcl t1, Nat.zero_le _, ?_, (fun h => by cases h), ?_⟩⟩
    · intro s hs'
      exact le_trans (hpa s (List.mem_of_mem_drop hs')) t1
    · cases hf : w.flight with
      | nil => exact absurd hf he
      | cons y r =>
        rw [hf] at hch
        refine ⟨y, y, hch.2, ?_, fun _ => ⟨rfl, now, rfl, ?_⟩⟩
        · exact Nat.le_add_right _ _
        · exact le_trans (hpa y (by rw [hf]; exact List.mem_cons_self)) t1
  | lose now =>
    have t1 : c.clock ≤ now := t1
    refine ⟨_, rfl, ⟨hg, le_trans hcl t1, he.2, ?_, had, ?_⟩⟩
    · intro s hs'
      exact le_trans (hpa s (List.mem_of_mem_drop hs')) t1
    · cases hf : w.flight with
      | nil => exact absurd hf he.1
      | cons y r =>
        rw [hf] at hch
        refine ⟨y, a, hch.2, ?_, fun u => hup (hno (fun _ _ h => by cases h) u)⟩
        have h1 := hch.1
        show y ≤ a + (c.lost + 1) * (B + pc.T)
        rw [Nat.add_mul, Nat.one_mul]
        omega
  | other now fr =>
    have t1 : c.clock ≤ now := t1
    obtain ⟨q', h1, h2, h3⟩ := recv_other he now w.link
    unfold Line.step
    dsimp only
    rw [h1]
    refine ⟨_, rfl, ⟨hg, le_trans hcl t1, hlo, fun s hs' => le_trans (hpa s hs') t1, by rw [show _ = _ from h2]; exact had, x, a, hch, hx, fun u => ?_⟩⟩
    rw [show _ = _ from h2, show _ = _ from h3]
    exact hup (hno (fun _ _ h => by cases h) u)
  | forget now =>
    have t1 : c.clock ≤ now := t1
    exact ⟨_, rfl, ⟨hg, le_trans hcl t1, hlo, fun s hs' => le_trans (hpa s hs') t1, had, x, a, hch, hx,
      fun u => hup (hno (fun _ _ h => by cases h) u)⟩⟩
  | check now =>
    have t1 : c.clock ≤ now := t1
    have t2 : now ≤ c.call + pc.T := t2
    have t3 : ∀ s ∈ w.flight, now ≤ s + pc.δ := t3
    have hage : now ≤ a + (pc.k + 1) * (B + pc.T) + pc.δ := by
      have hk : c.lost * (B + pc.T) + (B + pc.T) ≤ (pc.k + 1) * (B + pc.T) := by
        rw [Nat.add_mul, Nat.one_mul]
        exact Nat.add_le_add_right (Nat.mul_le_mul_right _ hlo) _
      cases hf : w.flight with
      | nil =>
        rw [hf] at hch
        have hch : x = w.gate.lldp := hch
        omega
      | cons y r =>
        rw [hf] at hch
        have := hch.1
        have := t3 y (by rw [hf]; exact List.mem_cons_self)
        omega
    have hpu : ∃ q', Stack.portUpdate l.cfg now w.link = some q' ∧ q'.state ≠ .adminDown ∧ (up → q'.state = .up ∧ q'.probe = w.link.probe) := by
      by_cases u : up
      · obtain ⟨u1, h, u2, u3⟩ := hup u
        refine ⟨⟨.up, w.link.probe, w.link.recv⟩, ?_, (fun h => by cases h), fun _ => ⟨rfl, rfl⟩⟩
        unfold Stack.portUpdate
        rw [u1, u2]
        dsimp only
        have : ((now : Int) - (h : Int)) < l.cfg.maxLost * l.cfg.interval := by
          show ((now : Int) - (h : Int)) < (l.maxLost : Int) * (l.d.interval : Int)
          have : now < h + l.maxLost * l.d.interval := by omega
          have : (now : Int) < (h : Int) + (l.maxLost : Int) * (l.d.interval : Int) := by exact_mod_cast this
          omega
        rw [if_pos this]
        rfl
      · have : ∃ q', Stack.portUpdate l.cfg now w.link = some q' ∧ q'.state ≠ .adminDown := by
          unfold Stack.portUpdate
          split
          · rename_i h; exact absurd h had
          · split
            · split
              · exact ⟨_, rfl, fun h => by cases h⟩
              · exact ⟨_, rfl, had⟩
            · split
              · split
                · exact ⟨_, rfl, fun h => by cases h⟩
                · exact ⟨_, rfl, fun h => by cases h⟩
              · exact ⟨_, rfl, fun h => by cases h⟩
        obtain ⟨q', h1, h2⟩ := this
        exact ⟨q', h1, h2, fun h => absurd h u⟩
    obtain ⟨q', h1, h2, h3⟩ := hpu
    unfold Line.step
    dsimp only
    rw [h1]
    refine ⟨_, rfl, ⟨hg, le_trans hcl t1, hlo, fun s hs' => le_trans (hpa s hs') t1, h2, x, a, hch, hx, fun u => ?_⟩⟩
    have u := hno (fun _ _ h => by cases h) u
    obtain ⟨-, h, u2, u3⟩ := hup u
    exact ⟨(h3 u).1, h, by rw [show _ = _ from (h3 u).2, u2], u3⟩

theorem inv_run {l : Line} (hl : Sound l) {pc : Pace} {B : Nat} (hB : Slack l pc B)
    (hb : (pc.k + 1) * (B + pc.T) + pc.δ < l.maxLost * l.d.interval) : ∀ (es : List Ev) {c : Watch} {w : Way} {up : Prop},
    Inv l pc (B + pc.T) c w up → AllHealthy l pc c w es →
    ∃ w', l.run w es = some w' ∧ (up ∨ (∃ now st, Ev.arrive now st ∈ es) → w'.link.state = .up)
  | [], _, w, up, hi, _ => by
    obtain ⟨x, a, -, -, h⟩ := hi.chain
    refine ⟨w, rfl, fun u => ?_⟩
    rcases u with u | ⟨_, _, u⟩
    · exact (h u).1
    · cases u
  | e :: es, c, w, up, hi, ha => by
    obtain ⟨w1, h1, h2⟩ := inv_step hl hB hb hi ha.1
    obtain ⟨w2, h3, h4⟩ := inv_run hl hB hb es h2 (ha.2 w1 h1)
    refine ⟨w2, ?_, fun u => h4 ?_⟩
    · show (l.step w e).bind _ = _
      rw [h1]
      exact h3
    · rcases u with u | ⟨n, s, u⟩
      · exact .inl (.inl u)
      · rcases List.mem_cons.1 u with u | u
        · exact .inl (.inr ⟨n, s, u.symm⟩)
        · exact .inr ⟨n, s, u⟩

/-- **C74.** Once a beacon has arrived, a link of a stack that is cabled as configured is up as long as the link is healthy: after
every history of calls of the service, of beacons that arrive late or are lost, of LLDP of others and of checks, whatever their order
and times, if the service is called at least every `T`, beacons take at most `δ` and at most `k` in a row are lost, and the
neighbour waits longer than that takes. Partial: that it waits long enough is not ensured by the configuration, see
`impatient_neighbour_defect`; `two_lost_defect` is about the default values. The configuration must meet the conditions of C73. -/
theorem healthy_link_stays_up_partial {l : Line} (hl : Sound l) {pc : Pace} {B : Nat} (hB : Slack l pc B)
    (hb : (pc.k + 1) * (B + pc.T) + pc.δ < l.maxLost * l.d.interval) (t : Nat) {q : Stack.LPort} (hq : q.state ≠ .adminDown) (es : List Ev)
    (ha : AllHealthy l pc ⟨t, t, 0⟩ ⟨⟨t, t⟩, [t], q⟩ es) :
    ∃ w, l.run ⟨⟨t, t⟩, [t], q⟩ es = some w ∧ ((∃ now st, Ev.arrive now st ∈ es) → w.link.state = .up) := by
  have hi : Inv l pc (B + pc.T) ⟨t, t, 0⟩ ⟨⟨t, t⟩, [t], q⟩ False := by
    refine ⟨⟨?_, ?_, le_refl _, le_refl _, fun _ => rfl, fun _ _ => rfl⟩, le_refl _, Nat.zero_le _, ?_, hq, t, t, ⟨?_, rfl⟩, ?_, fun h => h.elim⟩
    · exact Nat.le_add_right _ _
    · exact Nat.le_add_right _ _
    · intro s hs; rw [List.mem_singleton.1 hs]
    · exact Nat.le_add_right _ _
    · exact Nat.le_add_right _ _
  obtain ⟨w, h1, h2⟩ := inv_run hl hB hb es hi ha
  exact ⟨w, h1, fun u => h2 (.inr u)⟩

/-- **C74.** The first call of the service since FAUCET set the switch up sends a beacon: the state that
`healthy_link_stays_up_partial` starts with is the one after that call. (The clock shows seconds since 1970, so both intervals have
passed.) -/
theorem first_call_sends {l : Line} {t : Nat} (hf : 0 < l.fast) (h1 : l.fast ≤ t) (h2 : l.d.interval ≤ t) {ports : List BPort}
    (hp : ∃ b ∈ ports, b.number = l.p.number ∧ b.stack = true ∧ b.running = true ∧ b.beacon = true) (q : Stack.LPort) :
    l.step ⟨{}, [], q⟩ (.call t ports) = some ⟨⟨t, t⟩, [t], q⟩ := by
  have c1 : ¬ (l.fast = 0 ∨ t < (0 : Nat) + l.fast) := by omega
  have c2 : l.d.interval = 0 ∨ (0 : Nat) + l.d.interval ≤ t := by omega
  unfold Line.step Line.send advertise
  dsimp only
  rw [if_neg c1, if_pos c2]
  dsimp only
  rw [priority_sent hp]
  rfl

theorem allHealthy_cons {l : Line} {pc : Pace} {c : Watch} {w w' : Way} {e : Ev} {es : List Ev} (h : Healthy l pc c w e) (hs : l.step w e = some w')
    (h' : AllHealthy l pc (c.next e) w' es) : AllHealthy l pc c w (e :: es) := by
  refine ⟨h, fun w1 h1 => ?_⟩
  rw [hs] at h1
  cases h1
  exact h'

end Faucet.Lldp
