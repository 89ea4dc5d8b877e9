import Verif.Lldp.Timing

/-! # LLDP beacons: cases that meet the hypotheses, and findings -/

namespace Faucet.Lldp.Ex

/-- Switch 1, `sw1`. -/
def d1 : Dp := { mac := [0x0e, 0, 0, 0, 0, 1], dpId := 1, name := [115, 119, 49] }

/-- Switch 2, `sw2`. -/
def d2 : Dp := { mac := [0x0e, 0, 0, 0, 0, 1], dpId := 20, name := [115, 119, 50] }

/-- Port 12 of the stack, coming up, with a description and a TLV of another vendor. -/
def p12 : Port := { number := 12, descr := some [117, 112], orgTlvs := [([0, 0x12, 0xbb], 1, [55])], stack := some Stack.LState.init.code }

/-- Port 3 of the stack. -/
def p3 : Port := { number := 3, stack := some Stack.LState.up.code }

theorem apart12 : Apart d1 p12 := by
  intro t ht
  rw [List.mem_singleton.1 ht]
  exact ⟨rfl, fun h => absurd h (by decide)⟩

theorem apart3 : Apart d2 p3 := fun _ ht => absurd ht List.not_mem_nil

/-- What is read in the beacon of port 12: everything, by the theorem. -/
example : hear [0x0e, 0, 0, 9, 9, 9] (frame d1 p12) = some ⟨some 1, some [115, 119, 49], some 12, some 1⟩ :=
  beacon_identifies_sender_partial (d := d1) (p := p12) rfl (by decide +kernel) apart12 rfl

/-- The bytes of that frame. -/
example : frame d1 p12 = [1, 128, 194, 0, 0, 14, 14, 0, 0, 0, 0, 1, 136, 204, 2, 7, 4, 14, 0, 0, 0, 0, 1, 4, 3, 5, 49, 50, 6, 2, 0, 15,
    10, 3, 115, 119, 49, 8, 2, 117, 112, 254, 5, 0, 18, 187, 1, 55, 254, 5, 14, 0, 0, 1, 49, 254, 5, 14, 0, 0, 2, 49, 0, 0] := by
  decide +kernel

/-- The beacons of the two ports are told apart. -/
example : hear [0x0e, 0, 0, 9, 9, 9] (frame d1 p12) ≠ hear [0x0e, 0, 0, 9, 9, 9] (frame d2 p3) := fun h =>
  absurd (beacons_differ_partial (d := d1) (d' := d2) rfl rfl (by decide +kernel) (by decide +kernel) apart12 apart3 rfl rfl h).1 (by decide)

/-- A link that was found bad comes up with the beacon of the right port. -/
example (num : Bytes → Nat) : ∃ i, hear [0x0e, 0, 0, 9, 9, 9] (frame d1 p12) = some i ∧
    ∃ q', Stack.lldpRecv (expects num d1 p12 5 3) 100 (i.toLink num) ⟨.bad, some (90, false), none⟩ = some q' ∧ q'.state = .up :=
  right_cable_comes_up_partial (st := .init) rfl (by decide +kernel) apart12 rfl rfl (by decide) (by decide) rfl num (by decide) 100
    (by decide)

/-- A link that was up is taken down by the beacon of another port. -/
example (num : Bytes → Nat) : ∃ i, hear [0x0e, 0, 0, 9, 9, 9] (frame d2 p3) = some i ∧
    ∃ q', Stack.lldpRecv (expects num d1 p12 5 3) 100 (i.toLink num) ⟨.up, some (90, true), none⟩ = some q' ∧ q'.state = .bad :=
  wrong_cable_goes_down_partial (st := .up) rfl (by decide +kernel) apart3 rfl (by decide) (by decide) rfl (.inl (by decide)) num (by decide)
    100 (by decide)

/-- LLDP of another vendor's switch, with a TLV of its own. -/
def alien : Bytes := nearestBridge ++ [0, 1, 2, 3, 4, 5] ++ [0x88, 0xcc] ++
  encode [(tChassis, [4, 0, 1, 2, 3, 4, 5]), (tPort, [5, 49]), (tTtl, [0, 120]), (tOrg, [0, 0x12, 0xbb, 1, 49]), (tEnd, [])]

example (num : Bytes → Nat) (c : Stack.LCfg) (q : Stack.LPort) :
    ∃ i q', hear d1.mac alien = some i ∧ Stack.lldpRecv c 7 (i.toLink num) q = some q' ∧ q'.state = q.state ∧ q'.probe = q.probe :=
  others_change_nothing
    (ts := [(tChassis, [4, 0, 1, 2, 3, 4, 5]), (tPort, [5, 49]), (tTtl, [0, 120]), (tOrg, [0, 0x12, 0xbb, 1, 49]), (tEnd, [])])
    (by decide +kernel) (by decide) num c 7 q

/-! ## Findings -/

/-- Port 3 with a description of 80 letters. -/
def pLong : Port := { p3 with descr := some (List.replicate 80 97) }

/-- **C73, finding.** The rule that sends LLDP to FAUCET asks for the first 128 bytes of a frame, and nothing limits beacons to
that length. With a description of 80 letters on a stack port (where beacons are enabled for a port, its description is put
into them by default) the
beacon is longer than 128 bytes; its end does not arrive, FAUCET cannot read what does arrive, and a link that is cabled as
configured never comes up. -/
theorem long_description_defect : (frame d2 pLong).length = 135 ∧ hear d1.mac (frame d2 pLong) = none := by
  decide +kernel

/-- Port 3 with a TLV that looks like FAUCET's datapath ID. -/
def pShadow : Port := { p3 with orgTlvs := [([0x0e, 0, 0], 1, [57])] }

/-- **C73, finding.** Configured organisational TLVs (`org_tlvs`) come before FAUCET's own in a beacon, the first of a subtype is
taken, and nothing keeps the configuration from using FAUCET's vendor and subtype: such a TLV replaces the datapath ID, so that
switch 20 is taken for switch 9 and a link that is cabled as configured is found bad. -/
theorem shadowing_tlv_defect : hear d1.mac (frame d2 pShadow) = some ⟨some 9, some [115, 119, 50], some 3, some 3⟩ ∧
    ∀ num : Bytes → Nat, ∃ q', Stack.lldpRecv (expects num d2 pShadow 5 3) 100
      (Info.toLink num ⟨some 9, some [115, 119, 50], some 3, some 3⟩) ⟨.init, none, none⟩ = some q' ∧ q'.state = .bad := by
  refine ⟨by decide +kernel, fun num => ?_⟩
  simp [Stack.lldpRecv, Stack.logRaises, Stack.fromFaucet, Stack.knownState, Stack.verifyLldp, Stack.portUpdate, Info.toLink, expects, d2,
    pShadow, p3]

/-- Switch 2 with a MAC address of its own. -/
def dMac : Dp := { d2 with mac := [2, 0, 0, 0, 0, 1] }

/-- **C73, finding.** The vendor by which FAUCET knows its own TLVs is that of the MAC address configured for each switch
(`faucet_dp_mac`), and nothing asks for it to be the same on all switches of a stack: with different ones, switches do not
recognise each other's beacons, and a link that is cabled as configured never comes up, whatever is sent on it. -/
theorem different_mac_defect : hear d1.mac (frame dMac p3) = some ⟨none, none, none, none⟩ ∧
    ∀ (num : Bytes → Nat) (now : Int) (q : Stack.LPort), ∃ q', Stack.lldpRecv (expects num dMac p3 5 3) now
      (Info.toLink num ⟨none, none, none, none⟩) q = some q' ∧ q'.state = q.state :=
  ⟨by decide +kernel, fun _ _ q => ⟨⟨q.state, q.probe, none⟩, rfl, rfl⟩⟩

/-- Switch 2 with datapath ID 0. -/
def dZero : Dp := { d2 with dpId := 0 }

/-- **C73, finding.** The configuration may give a switch of a stack the datapath ID 0, but a beacon with this ID is read and then
ignored (`if remote_dp_id and remote_port_id`): its stack links never come up. -/
theorem zero_id_defect : hear d1.mac (frame dZero p3) = some ⟨some 0, some [115, 119, 50], some 3, some 3⟩ ∧
    ∀ (num : Bytes → Nat) (now : Int) (q : Stack.LPort), ∃ q', Stack.lldpRecv (expects num dZero p3 5 3) now
      (Info.toLink num ⟨some 0, some [115, 119, 50], some 3, some 3⟩) q = some q' ∧ q'.state = q.state := by
  refine ⟨by decide +kernel, fun num now q => ?_⟩
  refine ⟨⟨q.state, q.probe, some 3⟩, ?_, rfl⟩
  simp [Stack.lldpRecv, Stack.logRaises, Stack.fromFaucet, Stack.knownState, Info.toLink]

/-! ## Healthy links -/

/-- The link from port 3 of switch 2, with default values. -/
def line : Line := { d := d2, p := p3, mac := d1.mac, num := fun _ => 7 }

/-- The sender's ports: port 3, and one that is not in the stack. -/
def ports : List Service.BPort := [{ number := 3, stack := true }, { number := 4 }]

/-- The service is called every 5 to 7 seconds (the period is 5, the jitter below 2), one beacon in a row may be lost. -/
def pace : Pace := ⟨5, 7, 0, 1⟩

/-- A link that is being set up. -/
def fresh : Stack.LPort := ⟨.init, none, none⟩

theorem sound_line : Sound line :=
  ⟨rfl, fun st => by cases st <;> decide +kernel, apart3, rfl, rfl, by decide, by decide, by decide⟩

theorem hp : ∃ b ∈ ports, b.number = line.p.number ∧ b.stack = true ∧ b.running = true ∧ b.beacon = true :=
  ⟨{ number := 3, stack := true }, List.mem_cons_self, rfl, rfl, rfl, rfl⟩

/-- A beacon arrives, the next is lost, LLDP of another vendor comes in, and the link is looked at just before the third. -/
def history : List Ev :=
  [.arrive 100 .init, .call 107 ports, .lose 107, .other 110 alien, .check 114, .call 114 ports, .arrive 114 .up, .check 117]

theorem alien_other : ∀ ts, readLldp (alien.take 128) = some ts → ∀ t ∈ ts, t.1 = 127 → t.2.take 3 ≠ line.mac.take 3 := by
  intro ts h
  have e : readLldp (alien.take 128) =
      some [(tChassis, [4, 0, 1, 2, 3, 4, 5]), (tPort, [5, 49]), (tTtl, [0, 120]), (tOrg, [0, 0x12, 0xbb, 1, 49]), (tEnd, [])] := by
    decide +kernel
  rw [e] at h
  cases h
  decide

theorem history_healthy : AllHealthy line pace ⟨100, 100, 0⟩ ⟨⟨100, 100⟩, [100], fresh⟩ history := by
  refine allHealthy_cons (w' := ⟨⟨100, 100⟩, [], ⟨.up, some (100, true), some 1⟩⟩) ⟨by decide, by decide, by decide, by decide⟩ (by decide +kernel) ?_
  refine allHealthy_cons (w' := ⟨⟨107, 107⟩, [107], ⟨.up, some (100, true), some 1⟩⟩) ⟨by decide, by decide, by decide, by decide, hp⟩ (by decide +kernel) ?_
  refine allHealthy_cons (w' := ⟨⟨107, 107⟩, [], ⟨.up, some (100, true), some 1⟩⟩) ⟨by decide, by decide, by decide, by decide, by decide⟩ (by decide +kernel) ?_
  refine allHealthy_cons (w' := ⟨⟨107, 107⟩, [], ⟨.up, some (100, true), none⟩⟩) ⟨by decide, by decide, by decide, alien_other⟩ (by decide +kernel) ?_
  refine allHealthy_cons (w' := ⟨⟨107, 107⟩, [], ⟨.up, some (100, true), none⟩⟩) ⟨by decide, by decide, by decide, trivial⟩ (by decide +kernel) ?_
  refine allHealthy_cons (w' := ⟨⟨114, 114⟩, [114], ⟨.up, some (100, true), none⟩⟩) ⟨by decide, by decide, by decide, by decide, hp⟩ (by decide +kernel) ?_
  refine allHealthy_cons (w' := ⟨⟨114, 114⟩, [], ⟨.up, some (114, true), some 3⟩⟩) ⟨by decide, by decide, by decide, by decide⟩ (by decide +kernel) ?_
  exact ⟨⟨by decide, by decide, by decide, trivial⟩, fun _ _ => trivial⟩

/-- The theorem applies: with default values, one lost beacon in a row does no harm. -/
example : ∃ w, line.run ⟨⟨100, 100⟩, [100], fresh⟩ history = some w ∧ w.link.state = .up := by
  obtain ⟨w, h1, h2⟩ := healthy_link_stays_up_partial sound_line (pc := pace) (B := 0) (.inl ⟨by decide, by decide, rfl⟩) (by decide) 100
    (q := fresh) (by decide) history history_healthy
  exact ⟨w, h1, h2 ⟨100, .init, List.mem_cons_self⟩⟩

/-- The state it starts with is the one after the first call. -/
example : line.step ⟨{}, [], fresh⟩ (.call 100 ports) = some ⟨⟨100, 100⟩, [100], fresh⟩ :=
  first_call_sends (by decide) (by decide) (by decide) hp fresh

/-- **C74, finding.** How long a switch waits for beacons of its neighbour depends on the interval that is configured for the
neighbour's beacons (`send_interval`, at least 1) and not on how often they can be sent: the service runs every 5 to 7 seconds, and
not more often than `fast_advertise_interval`. With an interval of one second a link on which nothing is lost or late goes down after
three seconds, between one beacon and the next, and comes up with the next. -/
theorem impatient_neighbour_defect : ∃ (l : Line) (es : List Ev) (w : Way), Sound l ∧ l.d.interval = 1 ∧ l.maxLost = 3 ∧ l.fast = 5 ∧
    AllHealthy l ⟨5, 7, 0, 0⟩ ⟨100, 100, 0⟩ ⟨⟨100, 100⟩, [100], fresh⟩ es ∧
    l.run ⟨⟨100, 100⟩, [100], fresh⟩ es = some w ∧ w.link.state = .gone := by
  refine ⟨{ line with d := { d2 with interval := 1 } }, [.arrive 100 .init, .check 104], ⟨⟨100, 100⟩, [], ⟨.gone, some (100, true), some 1⟩⟩,
    ⟨rfl, fun st => by cases st <;> decide +kernel, apart3, rfl, rfl, by decide, by decide, by decide⟩, rfl, rfl, rfl, ?_, by decide +kernel, rfl⟩
  refine allHealthy_cons (w' := ⟨⟨100, 100⟩, [], ⟨.up, some (100, true), some 1⟩⟩) ⟨by decide, by decide, by decide, by decide⟩ (by decide +kernel) ?_
  exact ⟨⟨by decide, by decide, by decide, trivial⟩, fun _ _ => trivial⟩

/-- **C74, finding.** `max_lldp_lost`, 3 by default, counts intervals and not beacons: since beacons are sent 5 to 7 seconds apart,
with default values a link goes down after two lost beacons, 15 seconds after the last that arrived, before a third could be sent. -/
theorem two_lost_defect : ∃ (es : List Ev) (w : Way), line.d.interval = 5 ∧ line.maxLost = 3 ∧ line.fast = 5 ∧
    AllHealthy line ⟨5, 7, 0, 2⟩ ⟨100, 100, 0⟩ ⟨⟨100, 100⟩, [100], fresh⟩ es ∧
    line.run ⟨⟨100, 100⟩, [100], fresh⟩ es = some w ∧ w.link.state = .gone := by
  refine ⟨[.arrive 100 .init, .call 107 ports, .lose 107, .call 114 ports, .lose 114, .check 116],
    ⟨⟨114, 114⟩, [], ⟨.gone, some (100, true), some 1⟩⟩, rfl, rfl, rfl, ?_, by decide +kernel, rfl⟩
  refine allHealthy_cons (w' := ⟨⟨100, 100⟩, [], ⟨.up, some (100, true), some 1⟩⟩) ⟨by decide, by decide, by decide, by decide⟩ (by decide +kernel) ?_
  refine allHealthy_cons (w' := ⟨⟨107, 107⟩, [107], ⟨.up, some (100, true), some 1⟩⟩) ⟨by decide, by decide, by decide, by decide, hp⟩ (by decide +kernel) ?_
  refine allHealthy_cons (w' := ⟨⟨107, 107⟩, [], ⟨.up, some (100, true), some 1⟩⟩) ⟨by decide, by decide, by decide, by decide, by decide⟩ (by decide +kernel) ?_
  refine allHealthy_cons (w' := ⟨⟨114, 114⟩, [114], ⟨.up, some (100, true), some 1⟩⟩) ⟨by decide, by decide, by decide, by decide, hp⟩ (by decide +kernel) ?_
  refine allHealthy_cons (w' := ⟨⟨114, 114⟩, [], ⟨.up, some (100, true), some 1⟩⟩) ⟨by decide, by decide, by decide, by decide, by decide⟩ (by decide +kernel) ?_
  exact ⟨⟨by decide, by decide, by decide, trivial⟩, fun _ _ => trivial⟩

end Faucet.Lldp.Ex
