import Verif.Stack.Tree
import Mathlib.Data.List.Infix

/-!
# Stack link state (C27), and the topology it produces

Model of `/repo/faucet/port.py` 728-780 (`stack_port_update`), `/repo/faucet/valve.py` 728-757,
787-799, 1006-1074 (LLDP sending, checking and receiving), `/repo/faucet/valve_lldp.py` 82-190 and
`/repo/faucet/stack.py` 97-113.

Times are integers here (floats in the code).  A Python exception ends the controller process
(`kill_on_exception`, valve_util.py 27-43) and is `none`.
-/

namespace Faucet.Stack

/-- STACK_STATE_*, port.py 24-36. -/
inductive LState where
  | none | adminDown | init | bad | up | gone
deriving DecidableEq, Repr

/-- The value sent in LLDP and shown by `stack_state_name`, port.py 24-45. -/
def LState.code : LState → Int
  | .none => -1
  | .adminDown => 0
  | .init => 1
  | .bad => 2
  | .up => 3
  | .gone => 4

/-- States `stack_state_name` has a name for (`STACK_DISPLAY_DICT`, port.py 37-45). -/
def knownState (i : Int) : Bool := decide (-1 ≤ i ∧ i ≤ 4)

/-- What `parse_faucet_lldp` returns, valve_packet.py 374-391: absent or unparsable TLVs are
`none`. -/
structure Lldp where
  dpId : Option Nat
  name : Option Nat
  port : Option Nat
  state : Option Int
deriving DecidableEq, Repr

/-- Configuration of a stack port: who should be at the other end, how often that switch sends
LLDP, and how many may be lost (port.py 251, 753-762; the interval is at least 1, dp.py 416-419). -/
structure LCfg where
  peerDpId : Nat
  peerName : Nat
  peerPort : Nat
  interval : Int
  maxLost : Int

/-- Dynamic state of a stack port: `dyn_stack_current_state`, the fields of `dyn_stack_probe_info`
the code reads (time of the last LLDP, whether it was the expected one), and
`dyn_lldp_beacon_recv_state`. -/
structure LPort where
  state : LState
  probe : Option (Int × Bool)
  recv : Option Int
deriving DecidableEq, Repr

/-- A port as configured, port.py 274-282. -/
def LPort.new : LPort := ⟨.none, Option.none, Option.none⟩

/-- `stack_port_update(now)`, port.py 728-780.  In state ADMIN_DOWN it returns a bare state where
its only caller (valve_lldp.py 163) unpacks a pair, which raises.
`num_lost < max_lldp_lost` is written without the division (the interval is positive). -/
def portUpdate (c : LCfg) (now : Int) (p : LPort) : Option LPort :=
  match p.state with
  | .adminDown => Option.none
  | _ =>
    match p.probe with
    | Option.none => if p.state = .none then some ⟨.init, p.probe, p.recv⟩ else some p
    | some (seen, correct) =>
      if now - seen < c.maxLost * c.interval then
        if correct then some ⟨.up, p.probe, p.recv⟩ else some ⟨.bad, p.probe, p.recv⟩
      else some ⟨.gone, p.probe, p.recv⟩

/-- `verify_lldp`, valve_lldp.py 82-142: record whether the sender is the expected one, then
update the state. -/
def verifyLldp (c : LCfg) (now : Int) (l : Lldp) (p : LPort) : Option LPort :=
  portUpdate c now
    ⟨p.state,
      some (now, decide (l.dpId = some c.peerDpId ∧ l.name = some c.peerName ∧ l.port = some c.peerPort)),
      p.recv⟩

/-- Logging the sender's stack state, valve.py 1027-1041: the state must have a name and the port
id must be a number. -/
def logRaises (l : Lldp) (p : LPort) : Bool :=
  match l.state with
  | Option.none => false
  | some i => decide (p.recv ≠ l.state ∧ i ≠ 0 ∧ (knownState i = false ∨ l.port = Option.none))

/-- `if remote_dp_id and remote_port_id`, valve.py 1051. -/
def fromFaucet (l : Lldp) : Bool :=
  (match l.dpId with | some i => decide (i ≠ 0) | Option.none => false) &&
  (match l.port with | some i => decide (i ≠ 0) | Option.none => false)

/-- `lldp_handler` on a stack port, valve.py 1006-1074. -/
def lldpRecv (c : LCfg) (now : Int) (l : Lldp) (p : LPort) : Option LPort :=
  if logRaises l p then Option.none
  else if fromFaucet l then verifyLldp c now l ⟨p.state, p.probe, l.state⟩
  else some ⟨p.state, p.probe, l.state⟩

/-- What happens to a stack port: an LLDP packet arrives, or the periodic check runs
(`fast_state_expire`, valve.py 787-799).  `forget` is the part of that check that clears
`dyn_lldp_beacon_recv_state`; it is a separate event here. -/
inductive LEvent where
  | lldp (now : Int) (l : Lldp)
  | check (now : Int)
  | forget

/-- One event. -/
def linkStep (c : LCfg) (p : LPort) : LEvent → Option LPort
  | .lldp now l => lldpRecv c now l p
  | .check now => portUpdate c now p
  | .forget => some ⟨p.state, p.probe, Option.none⟩

/-- A history of events; `none` once the controller has died. -/
def linkRun (c : LCfg) : LPort → List LEvent → Option LPort
  | p, [] => some p
  | p, e :: es =>
    match linkStep c p e with
    | Option.none => Option.none
    | some p' => linkRun c p' es

/-! ## Specification: what has been heard -/

/-- The LLDP packet from a FAUCET switch that an event brings, with its time. -/
def heardIn : LEvent → Option (Int × Lldp)
  | .lldp now l => if fromFaucet l then some (now, l) else Option.none
  | _ => Option.none

/-- The time at which an event looks at the link: an LLDP packet from a FAUCET switch or a periodic
check. -/
def lookIn : LEvent → Option Int
  | .lldp now l => if fromFaucet l then some now else Option.none
  | .check now => some now
  | .forget => Option.none

/-- The most recent LLDP packet from a FAUCET switch, with its time. -/
def lastHeard (es : List LEvent) : Option (Int × Lldp) := (es.filterMap heardIn).getLast?

/-- When the link was last looked at. -/
def lastLook (es : List LEvent) : Option Int := (es.filterMap lookIn).getLast?

/-- The packet names the switch and port the configuration expects at the other end. -/
def Expected (c : LCfg) (l : Lldp) : Prop :=
  l.dpId = some c.peerDpId ∧ l.name = some c.peerName ∧ l.port = some c.peerPort

/-! ## Proof -/

theorem linkRun_append (c : LCfg) (p : LPort) (a b : List LEvent) :
    linkRun c p (a ++ b) = (linkRun c p a).bind (fun q => linkRun c q b) := by
  induction a generalizing p with
  | nil => rfl
  | cons e es ih =>
    simp only [List.cons_append, linkRun]
    split
    · rfl
    · exact ih _

theorem lastHeard_snoc (es : List LEvent) (e : LEvent) :
    lastHeard (es ++ [e]) = match heardIn e with
      | some x => some x
      | Option.none => lastHeard es := by
  unfold lastHeard
  cases h : heardIn e <;> simp [List.filterMap_append, h]

theorem lastLook_snoc (es : List LEvent) (e : LEvent) :
    lastLook (es ++ [e]) = match lookIn e with
      | some x => some x
      | Option.none => lastLook es := by
  unfold lastLook
  cases h : lookIn e <;> simp [List.filterMap_append, h]

/-- State of the port in terms of what was heard. -/
structure LInv (c : LCfg) (es : List LEvent) (p : LPort) : Prop where
  notAdmin : p.state ≠ .adminDown
  probe : ∀ t b, p.probe = some (t, b) ↔ ∃ l, lastHeard es = some (t, l) ∧ (b = true ↔ Expected c l)
  heardLook : ∀ x, lastHeard es = some x → ∃ now, lastLook es = some now
  fresh : lastHeard es = Option.none → p.state = .none ∨ p.state = .init
  state : ∀ t l now, lastHeard es = some (t, l) → lastLook es = some now →
    (p.state = .up ↔ Expected c l ∧ now - t < c.maxLost * c.interval) ∧
    (p.state = .bad ↔ ¬ Expected c l ∧ now - t < c.maxLost * c.interval) ∧
    (p.state = .gone ↔ ¬ now - t < c.maxLost * c.interval)

/-- What a look at the link does when something has been heard. -/
theorem portUpdate_some {c : LCfg} {now t : Int} {b : Bool} {p q : LPort}
    (h : portUpdate c now p = some q) (hp : p.probe = some (t, b)) :
    q.probe = p.probe ∧ q.state ≠ .adminDown ∧
    (q.state = .up ↔ b = true ∧ now - t < c.maxLost * c.interval) ∧
    (q.state = .bad ↔ b = false ∧ now - t < c.maxLost * c.interval) ∧
    (q.state = .gone ↔ ¬ now - t < c.maxLost * c.interval) := by
  unfold portUpdate at h
  rw [hp] at h
  split at h
  · simp at h
  · dsimp only at h
    by_cases hc : now - t < c.maxLost * c.interval
    · rw [if_pos hc] at h
      cases b with
      | true =>
        simp only [if_true, Option.some.injEq] at h
        subst h
        simp [hc, hp]
      | false =>
        simp only [Bool.false_eq_true, if_false, Option.some.injEq] at h
        subst h
        simp [hc, hp]
    · rw [if_neg hc] at h
      simp only [Option.some.injEq] at h
      subst h
      simp [hc, hp]

theorem portUpdate_none {c : LCfg} {now : Int} {p q : LPort}
    (h : portUpdate c now p = some q) (hp : p.probe = Option.none) :
    q.probe = Option.none ∧ q.state ≠ .adminDown ∧
      (p.state = .none ∨ p.state = .init → q.state = .none ∨ q.state = .init) := by
  unfold portUpdate at h
  rw [hp] at h
  split at h
  · simp at h
  · rename_i hna
    dsimp only at h
    split at h
    · simp only [Option.some.injEq] at h; subst h
      exact ⟨rfl, by simp, fun _ => .inr rfl⟩
    · simp only [Option.some.injEq] at h; subst h
      exact ⟨hp, fun h => hna h, fun h => h⟩

theorem linv_step {c : LCfg} {es : List LEvent} {p q : LPort} (hi : LInv c es p) (e : LEvent)
    (h : linkStep c p e = some q) : LInv c (es ++ [e]) q := by
  -- events that do not look at the link
  have skip : heardIn e = Option.none → lookIn e = Option.none → q.state = p.state →
      q.probe = p.probe → LInv c (es ++ [e]) q := by
    intro h1 h2 h3 h4
    have e1 : lastHeard (es ++ [e]) = lastHeard es := by rw [lastHeard_snoc, h1]
    have e2 : lastLook (es ++ [e]) = lastLook es := by rw [lastLook_snoc, h2]
    exact ⟨by rw [h3]; exact hi.notAdmin, by rw [h4, e1]; exact hi.probe,
      by rw [e1, e2]; exact hi.heardLook, by rw [e1, h3]; exact hi.fresh,
      by rw [e1, e2, h3]; exact hi.state⟩
  cases e with
  | forget =>
    simp only [linkStep, Option.some.injEq] at h
    exact skip rfl rfl (by rw [← h]) (by rw [← h])
  | check now =>
    simp only [linkStep] at h
    have e1 : lastHeard (es ++ [.check now]) = lastHeard es := by rw [lastHeard_snoc]; rfl
    have e2 : lastLook (es ++ [.check now]) = some now := by rw [lastLook_snoc]; rfl
    cases hp : p.probe with
    | none =>
      obtain ⟨k1, k2, k3⟩ := portUpdate_none h hp
      have hno : lastHeard es = Option.none := by
        cases hl : lastHeard es with
        | none => rfl
        | some x =>
          obtain ⟨t, l⟩ := x
          by_cases hx : Expected c l
          · have := (hi.probe t true).2 ⟨l, hl, by simp [hx]⟩
            rw [hp] at this; simp at this
          · have := (hi.probe t false).2 ⟨l, hl, by simp [hx]⟩
            rw [hp] at this; simp at this
      refine ⟨k2, ?_, ?_, ?_, ?_⟩
      · intro t b
        rw [k1, e1, hno]; simp
      · intro x hx; exact ⟨now, e2⟩
      · intro _; exact k3 (hi.fresh hno)
      · intro t l nw hl
        rw [e1, hno] at hl; simp at hl
    | some x =>
      obtain ⟨t0, b0⟩ := x
      obtain ⟨k1, k2, k3, k4, k5⟩ := portUpdate_some h hp
      refine ⟨k2, ?_, ?_, ?_, ?_⟩
      · intro t b; rw [k1, e1]; exact hi.probe t b
      · intro x hx; exact ⟨now, e2⟩
      · intro hn
        rw [e1] at hn
        obtain ⟨l, hl, _⟩ := (hi.probe t0 b0).1 hp
        rw [hn] at hl; simp at hl
      · intro t l nw hl hk
        rw [e1] at hl
        rw [e2] at hk
        simp only [Option.some.injEq] at hk
        subst hk
        obtain ⟨l', hl', hb⟩ := (hi.probe t0 b0).1 hp
        rw [hl] at hl'
        simp only [Option.some.injEq, Prod.mk.injEq] at hl'
        obtain ⟨rfl, rfl⟩ := hl'
        refine ⟨by rw [k3, hb], ?_, k5⟩
        rw [k4]
        cases b0 <;> simp_all
  | lldp now l =>
    simp only [linkStep, lldpRecv] at h
    split at h
    · simp at h
    · split at h
      · rename_i hf
        have e1 : lastHeard (es ++ [.lldp now l]) = some (now, l) := by
          rw [lastHeard_snoc]; simp [heardIn, hf]
        have e2 : lastLook (es ++ [.lldp now l]) = some now := by
          rw [lastLook_snoc]; simp [lookIn, hf]
        unfold verifyLldp at h
        obtain ⟨k1, k2, k3, k4, k5⟩ := portUpdate_some h rfl
        dsimp only at k1
        refine ⟨k2, ?_, ?_, ?_, ?_⟩
        · intro t b
          rw [k1, e1]
          simp only [Option.some.injEq, Prod.mk.injEq]
          constructor
          · rintro ⟨rfl, rfl⟩
            exact ⟨l, ⟨rfl, rfl⟩, by simp [Expected]⟩
          · rintro ⟨l', ⟨rfl, rfl⟩, hb⟩
            refine ⟨rfl, ?_⟩
            rw [Bool.eq_iff_iff, hb]
            simp [Expected]
        · intro x hx; exact ⟨now, e2⟩
        · intro hn; rw [e1] at hn; simp at hn
        · intro t l' nw hl hk
          rw [e1] at hl
          rw [e2] at hk
          simp only [Option.some.injEq, Prod.mk.injEq] at hl hk
          obtain ⟨rfl, rfl⟩ := hl
          subst hk
          refine ⟨by rw [k3]; simp [Expected], ?_, k5⟩
          rw [k4, decide_eq_false_iff_not]
          rfl
      · rename_i hf
        simp only [Option.some.injEq] at h
        refine skip ?_ ?_ (by rw [← h]) (by rw [← h])
        · simp [heardIn, hf]
        · simp [lookIn, hf]

theorem linv_run {c : LCfg} : ∀ (es : List LEvent) {p : LPort}, linkRun c .new es = some p →
    LInv c es p := by
  intro es
  induction es using List.reverseRecOn with
  | nil =>
    intro p h
    simp only [linkRun, Option.some.injEq] at h
    subst h
    exact ⟨by simp [LPort.new], by simp [LPort.new, lastHeard], by simp [lastHeard],
      by simp [LPort.new], by simp [lastHeard]⟩
  | append_singleton es e ih =>
    intro p h
    rw [linkRun_append] at h
    cases hq : linkRun c .new es with
    | none => rw [hq] at h; simp at h
    | some q =>
      rw [hq] at h
      simp only [Option.bind_some, linkRun] at h
      split at h
      · simp at h
      · rename_i p' hp'
        simp only [Option.some.injEq] at h
        subst h
        exact linv_step (ih hq) e hp'

/-- C27: after any history, a stack link is up exactly when the last LLDP packet from a FAUCET
switch on it came from the expected switch and port, and was recent when the link was last looked
at. -/
theorem link_up_iff (c : LCfg) (es : List LEvent) (p : LPort) (h : linkRun c .new es = some p) :
    p.state = .up ↔ ∃ t l now, lastHeard es = some (t, l) ∧ lastLook es = some now ∧
      Expected c l ∧ now - t < c.maxLost * c.interval := by
  have hi := linv_run es h
  constructor
  · intro hu
    cases hl : lastHeard es with
    | none =>
      rcases hi.fresh hl with h' | h' <;> rw [h'] at hu <;> simp at hu
    | some x =>
      obtain ⟨t, l⟩ := x
      obtain ⟨now, hn⟩ := hi.heardLook _ hl
      have := (hi.state t l now hl hn).1.1 hu
      exact ⟨t, l, now, rfl, hn, this⟩
  · rintro ⟨t, l, now, h1, h2, h3⟩
    exact (hi.state t l now h1 h2).1.2 h3

/-- C27: a check that comes too long after the last LLDP packet takes the link out of up. -/
theorem loss_takes_down (c : LCfg) (es : List LEvent) (now t : Int) (l : Lldp) (p : LPort)
    (h : linkRun c .new (es ++ [.check now]) = some p) (hl : lastHeard es = some (t, l))
    (hlate : c.maxLost * c.interval ≤ now - t) : p.state = .gone := by
  have hi := linv_run _ h
  refine (hi.state t l now ?_ ?_).2.2.2 (by omega)
  · rw [lastHeard_snoc]; exact hl
  · rw [lastLook_snoc]; rfl

/-- C27: an LLDP packet from any other FAUCET switch or port takes the link out of up at once. -/
theorem miscabling_takes_down (c : LCfg) (es : List LEvent) (now : Int) (l : Lldp) (p : LPort)
    (h : linkRun c .new (es ++ [.lldp now l]) = some p) (hf : fromFaucet l = true)
    (hx : ¬ Expected c l) : p.state = .bad ∨ p.state = .gone := by
  have hi := linv_run _ h
  have hs := hi.state now l now (by rw [lastHeard_snoc]; simp [heardIn, hf])
    (by rw [lastLook_snoc]; simp [lookIn, hf])
  by_cases hc : now - now < c.maxLost * c.interval
  · exact .inl (hs.2.1.2 ⟨hx, hc⟩)
  · exact .inr (hs.2.2.2 hc)

/-- C27: an admin-down link never leaves that state by itself. -/
theorem admin_down_stays (c : LCfg) (es : List LEvent) (p q : LPort) (hp : p.state = .adminDown)
    (h : linkRun c p es = some q) : q.state = .adminDown := by
  induction es generalizing p with
  | nil => simp only [linkRun, Option.some.injEq] at h; subst h; exact hp
  | cons e es ih =>
    unfold linkRun at h
    split at h
    · simp at h
    · rename_i p' hp'
      refine ih p' ?_ h
      cases e with
      | forget =>
        simp only [linkStep, Option.some.injEq] at hp'
        rw [← hp']; exact hp
      | check now =>
        simp only [linkStep, portUpdate, hp] at hp'
        simp at hp'
      | lldp now l =>
        simp only [linkStep, lldpRecv, verifyLldp, portUpdate, hp] at hp'
        split at hp'
        · simp at hp'
        · split at hp'
          · simp at hp'
          · simp only [Option.some.injEq] at hp'
            rw [← hp']

/-! ## Sending -/

/-- The LLDP packet a switch sends on a stack port, valve.py 728-757 and valve_packet.py 266-345:
`sysName` is the configured LLDP system name, if any, of the port or of the switch. -/
def beacon (dpId name : Nat) (sysName : Option Nat) (port : Nat) (st : LState) : Lldp :=
  ⟨some dpId, some (sysName.getD name), some port, some st.code⟩

/-- A link on which the right neighbour is heard comes up at once, unless it is admin-down or the
configuration renames that switch in LLDP. -/
theorem beacon_brings_up (c : LCfg) (now : Int) (p : LPort) (st : LState) (hp : p.state ≠ .adminDown)
    (hd : c.peerDpId ≠ 0) (hn : c.peerPort ≠ 0) (hi : 0 < c.maxLost * c.interval) :
    ∃ q, lldpRecv c now (beacon c.peerDpId c.peerName Option.none c.peerPort st) p = some q ∧ q.state = .up := by
  have hl : logRaises (beacon c.peerDpId c.peerName Option.none c.peerPort st) p = false := by
    unfold logRaises beacon
    have : knownState st.code = true := by cases st <;> rfl
    simp [this]
  have hf : fromFaucet (beacon c.peerDpId c.peerName Option.none c.peerPort st) = true := by
    simp [fromFaucet, beacon, hd, hn]
  unfold lldpRecv
  rw [hl, hf]
  simp only [Bool.false_eq_true, if_false, if_true]
  unfold verifyLldp portUpdate
  dsimp only
  split
  · rename_i h; exact absurd h hp
  · rw [if_pos (by omega)]
    simp [beacon]

end Faucet.Stack
