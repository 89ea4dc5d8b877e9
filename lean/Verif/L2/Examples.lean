import Verif.L2.Isolation
import Verif.OpenFlow.Eval

/-! # One standalone switch: cases that meet the hypotheses, and defects -/

namespace Faucet.L2.Ex
open Faucet.OF

/-- A state of controller and switch, the switch given by everything that it was sent. -/
def play (c : Cfg) (r : Ctl × List OfMsg) (ev : Ev) : Option (Ctl × List OfMsg) :=
  (c.react r.1 ev).bind (fun x => (FlowReorder.reorder id true x.1).map (fun out => (x.2, r.2 ++ out)))

def swOf (r : Ctl × List OfMsg) : Switch := emptySwitch.execAll r.2

theorem within_swOf (r : Ctl × List OfMsg) : Within (swOf r) (addSlots r.2) := by
  have := within_exec within_empty r.2
  rwa [List.nil_append] at this

theorem play_start {c : Cfg} {ok : Pkt → Prop} {now : Int} {up : List Nat} {lag : Nat → LagChange} {r : Ctl × List OfMsg}
    (h : play c (Ctl.init, []) (.connect now up lag) = some r) : Reach c ok ⟨r.1, swOf r, fun _ => False⟩ := by
  unfold play at h
  obtain ⟨x, hx, h⟩ := Option.bind_eq_some_iff.1 h
  obtain ⟨out, ho, rfl⟩ := Option.map_eq_some_iff.1 h
  exact .start (sh := id) (bar := true) (fun l => List.Perm.refl l) hx ho

theorem play_event {c : Cfg} {ok : Pkt → Prop} {r r' : Ctl × List OfMsg} {ev : Ev} {seen : PacketIn → Prop}
    (h : Reach c ok ⟨r.1, swOf r, seen⟩) (he : ∀ now k, ev = .packetIn now k → seen k) (hp : play c r ev = some r') :
    Reach c ok ⟨r'.1, swOf r', seen⟩ := by
  unfold play at hp
  obtain ⟨x, hx, hp⟩ := Option.bind_eq_some_iff.1 hp
  obtain ⟨out, ho, rfl⟩ := Option.map_eq_some_iff.1 hp
  have := Reach.event (sh := id) (bar := true) h (fun l => List.Perm.refl l) he hx ho
  have hs : swOf (x.2, r.2 ++ out) = (swOf r).execAll out := by simp [swOf, Switch.execAll]
  rw [hs]
  exact this

/-- What the switch does with a packet. -/
def send (r : Ctl × List OfMsg) (k : Pkt) : Option (List (Nat × List (Nat × Nat))) :=
  (evalProc (addSlots r.2) (swOf r) 20 0 k).map outs

/-! ## A switch with two VLANs

Ports 1 and 5 are in VLAN 100, port 2 in VLAN 200, port 3 in both, tagged. Port 1 is in a LAG and is mirrored to port 4. -/

def conf : Cfg where
  ports := [{ number := 1, native := some 100, mirror := [4], lacp := 1 }, { number := 2, native := some 200 },
    { number := 3, tagged := [100, 200], receiveLldp := true }, { number := 4, outputOnly := true }, { number := 5, native := some 100 }]
  vlans := [{ vid := 100 }, { vid := 200 }]

def booted : Ctl × List OfMsg :=
  (play conf (Ctl.init, []) (.connect 1000 [1, 2, 3, 4, 5] (fun _ => some (true, true)))).getD (Ctl.init, [])

def pkt (inPort src dst : Nat) (tags : List (Nat × Nat)) (etype : Nat := 0x800) : Pkt where
  hdr := fun f => if f = fInPort then some inPort else if f = fEthSrc then some src else if f = fEthDst then some dst
    else if f = fEthType then some etype else none
  tags := tags

theorem wire_pkt {n src dst etype : Nat} {tags : List (Nat × Nat)} (h : ∀ t ∈ tags, t.1 < 4096) : Wire (pkt n src dst tags etype) := h

theorem conf_wf : conf.WF := by
  refine ⟨by decide, by decide, by decide, by decide, ?_, ?_, mirrors_all (by decide)⟩
  · intro p hp vid h
    simp only [conf, List.mem_cons, List.not_mem_nil, or_false] at hp
    rcases hp with rfl | rfl | rfl | rfl | rfl <;> simp at h
    · exact ⟨{ vid := 100 }, by simp [conf], h⟩
    · exact ⟨{ vid := 200 }, by simp [conf], h⟩
    · rcases h with rfl | rfl
      · exact ⟨{ vid := 100 }, by simp [conf], rfl⟩
      · exact ⟨{ vid := 200 }, by simp [conf], rfl⟩
    · exact ⟨{ vid := 100 }, by simp [conf], h⟩
  · intro p hp vid h
    simp only [conf, List.mem_cons, List.not_mem_nil, or_false] at hp
    rcases hp with rfl | rfl | rfl | rfl | rfl <;> simp at h ⊢

/-- A play that did not fail. -/
theorem played {c : Cfg} {r : Ctl × List OfMsg} {ev : Ev} (h : (play c r ev).isSome) :
    play c r ev = some ((play c r ev).getD (Ctl.init, [])) := by
  obtain ⟨x, hx⟩ := Option.isSome_iff_exists.1 h
  rw [hx]; rfl

theorem booted_reach (ok : Pkt → Prop) : Reach conf ok ⟨booted.1, swOf booted, fun _ => False⟩ :=
  play_start (played (by decide +kernel))

/-- What happens to a packet is what `send` says. -/
theorem send_proc {r : Ctl × List OfMsg} {k : Pkt} {l : List (Nat × List (Nat × Nat))} (h : send r k = some l) :
    ∃ es, Proc (swOf r) 0 k es ∧ outs es = l := evalProc_outs (within_swOf r) h

/-- A copy for FAUCET is seen. -/
theorem seen_of {c : Cfg} {ok : Pkt → Prop} {r : Ctl × List OfMsg} {seen : PacketIn → Prop} (h : Reach c ok ⟨r.1, swOf r, seen⟩)
    {k : Pkt} (hk : ok k) {es : List Emit} (hp : Proc (swOf r) 0 k es) {e : Emit} (he : e ∈ es) (hc : e.port = portController) :
    ∃ seen', seen' (Emit.toPacketIn e) ∧ (∀ x, seen x → seen' x) ∧ Reach c ok ⟨r.1, swOf r, seen'⟩ :=
  ⟨_, Or.inr ⟨e, he, hc, rfl⟩, fun _ hx => Or.inl hx, .packet h hk hp⟩

/-- Packets that do not match a host go to all members, tagged as configured, to the mirror of port 1, and to FAUCET. -/
example : send booted (pkt 3 0x20 0x30 [(100, 5), (7, 7)]) =
    some [(portController, [(100, 5), (7, 7)]), (1, [(7, 7)]), (4, [(7, 7)]), (5, [(7, 7)])] := by decide +kernel

example : send booted (pkt 1 0x20 0x30 []) =
    some [(4, []), (portController, [(100, 0)]), (3, [(100, 0)]), (5, [])] := by decide +kernel

/-- The isolation theorem applies to it. -/
example : ∃ es, Proc (swOf booted) 0 (pkt 3 0x20 0x30 [(100, 5), (7, 7)]) es ∧ es.length = 4 ∧
    ∀ e ∈ es, SameContent (pkt 3 0x20 0x30 [(100, 5), (7, 7)]) e ∧
      Allowed conf { number := 3, tagged := [100, 200], receiveLldp := true } (pkt 3 0x20 0x30 [(100, 5), (7, 7)]) e := by
  obtain ⟨es, h1, h2⟩ := send_proc (r := booted) (k := pkt 3 0x20 0x30 [(100, 5), (7, 7)])
    (l := [(portController, [(100, 5), (7, 7)]), (1, [(7, 7)]), (4, [(7, 7)]), (5, [(7, 7)])]) (by decide +kernel)
  refine ⟨es, h1, ?_, vlan_isolation_partial conf_wf (booted_reach _)
    (p := { number := 3, tagged := [100, 200], receiveLldp := true }) (by simp [conf]) (k := pkt 3 0x20 0x30 [(100, 5), (7, 7)])
    (wire_pkt (by decide)) rfl h1⟩
  have := congrArg List.length h2
  simpa [outs] using this

/-- Packets from port 9 go nowhere. -/
example (es : List Emit) (h : Proc (swOf booted) 0 (pkt 9 0x20 0x30 []) es) : es = [] :=
  unknown_port_silent conf_wf (booted_reach _) (by decide) h

/-! ## After a host was learned -/

theorem emit_of_outs {es : List Emit} {n : Nat} {tags : List (Nat × Nat)} (h : (n, tags) ∈ outs es) :
    ∃ e ∈ es, e.port = n ∧ e.tags = tags := by
  obtain ⟨e, he, hx⟩ := List.mem_map.1 h
  exact ⟨e, he, congrArg Prod.fst hx, congrArg Prod.snd hx⟩

def pin (n : Nat) (tags : List (Nat × Nat)) (src : Nat) : PacketIn := ⟨n, tags, src⟩

def learned : Ctl × List OfMsg := (play conf booted (.packetIn 1001 (pin 3 [(100, 5)] 0x20))).getD (Ctl.init, [])

theorem plain_pkt {c : Cfg} {n src dst : Nat} {tags : List (Nat × Nat)} (hd : dst < 0x0180C2000000) : Plain c (pkt n src dst tags) := by
  intro p _ _ hc
  exfalso
  rcases hc with ⟨-, h, -⟩ | ⟨-, ⟨d, hd', h⟩, -⟩
  · have : some dst = some 0x0180C2000002 := h
    have := Option.some.inj this
    omega
  · have : some dst = some d := hd'
    have := Option.some.inj this
    subst this
    have := Nat.and_le_left (n := dst) (m := 0xFFFFFFFFFFF0)
    omega

/-- A packet comes in, goes to FAUCET, and FAUCET handles it. -/
theorem learn_step {c : Cfg} (hw : c.WF) {r r' : Ctl × List OfMsg} {seen : PacketIn → Prop}
    (h : Reach c (fun k => Wire k ∧ Plain c k) ⟨r.1, swOf r, seen⟩) {p : LPort} (hp : p ∈ c.ports) {k : Pkt} (hk : Wire k)
    (hpl : Plain c k) (hin : k.hdr fInPort = some p.number) {l : List (Nat × List (Nat × Nat))} (hs : send r k = some l)
    {tags : List (Nat × Nat)} (ht : (portController, tags) ∈ l) {src : Nat} (hsrc : k.hdr fEthSrc = some src) {now : Int}
    (hev : play c r (.packetIn now ⟨p.number, tags, src⟩) = some r') :
    ∃ seen', Reach c (fun k => Wire k ∧ Plain c k) ⟨r'.1, swOf r', seen'⟩ := by
  obtain ⟨es, h1, h2⟩ := send_proc hs
  obtain ⟨e, he, hpc, htg⟩ := emit_of_outs (es := es) (n := portController) (tags := tags) (by rw [h2]; exact ht)
  have hgood := vlan_isolation_partial hw h hp hk hin h1 e he
  obtain ⟨seen', hs', -, hr⟩ := seen_of h (⟨hk, hpl⟩ : Wire _ ∧ Plain c _) h1 he hpc
  have hpin : Emit.toPacketIn e = ⟨p.number, tags, src⟩ := by
    unfold Emit.toPacketIn
    rw [htg, hgood.1 _ (by decide), hgood.1 _ (by decide), hin, hsrc]
    rfl
  rw [hpin] at hs'
  exact ⟨seen', play_event hr (fun now k hk => by cases hk; exact hs') hev⟩

theorem learned_reach : ∃ seen, Reach conf (fun k => Wire k ∧ Plain conf k) ⟨learned.1, swOf learned, seen⟩ :=
  learn_step conf_wf (booted_reach _) (p := { number := 3, tagged := [100, 200], receiveLldp := true }) (by simp [conf])
    (k := pkt 3 0x20 0x30 [(100, 5)]) (wire_pkt (by decide)) (plain_pkt (by decide)) rfl
    (l := [(portController, [(100, 5)]), (1, []), (4, []), (5, [])]) (by decide +kernel) (by simp) rfl (played (by decide +kernel))

/-- A packet to it goes to its port only; FAUCET does not yet know the source. -/
example : send learned (pkt 5 0x30 0x20 []) = some [(portController, [(100, 0)]), (3, [(100, 0)])] := by decide +kernel

example : ∃ seen, Reach conf (fun k => Wire k ∧ Plain conf k) ⟨learned.1, swOf learned, seen⟩ ∧
    (Learn.host learned.1.learn 100 0x20).isSome = true := by
  obtain ⟨seen, h⟩ := learned_reach
  exact ⟨seen, h, by decide +kernel⟩

/-! ## Tagged LACP frames -/

def fooled : Ctl × List OfMsg := (play conf booted (.packetIn 1001 (pin 1 [(200, 0)] 0x20))).getD (Ctl.init, [])

theorem fooled_reach : ∃ seen, Reach conf Wire ⟨fooled.1, swOf fooled, seen⟩ := by
  obtain ⟨es, h1, h2⟩ := send_proc (r := booted) (k := pkt 1 0x20 0x0180C2000002 [(200, 0)] 0x8809)
    (l := [(portController, [(200, 0)])]) (by decide +kernel)
  obtain ⟨e, he, hp, ht⟩ := emit_of_outs (es := es) (n := portController) (tags := [(200, 0)]) (by rw [h2]; simp)
  have hgood := vlan_isolation_partial conf_wf (booted_reach _)
    (p := { number := 1, native := some 100, mirror := [4], lacp := 1 }) (by simp [conf]) (wire_pkt (by decide)) rfl h1 e he
  obtain ⟨seen, hs, -, hr⟩ := seen_of (booted_reach Wire) (wire_pkt (by decide)) h1 he hp
  have hpin : Emit.toPacketIn e = pin 1 [(200, 0)] 0x20 := by
    unfold Emit.toPacketIn pin
    rw [ht, hgood.1 _ (by decide), hgood.1 _ (by decide)]
    rfl
  rw [hpin] at hs
  exact ⟨seen, play_event hr (fun now k hk => by cases hk; exact hs) (played (by decide +kernel))⟩

/-- On a port with LACP, an LACP frame goes to FAUCET whether it is tagged or not, with its tag. On a switch that is not in a
stack FAUCET does not check that the port is in the VLAN of the tag (`faucet/valve.py` 1290-1300 does so only in stacks), and
learns the source on the port. From then on packets of that VLAN to that address leave through the port, which is not in the
VLAN. So a neighbour on a LAG port of VLAN 100 can take the traffic of any host of VLAN 200 for itself (the same goes for
LLDP frames on ports with `receive_lldp`). -/
theorem tagged_lacp_breaks_isolation_defect : ∃ s p k es e, conf.WF ∧ Reach conf Wire s ∧ p ∈ conf.ports ∧ Wire k ∧
    k.hdr fInPort = some p.number ∧ Proc s.sw 0 k es ∧ e ∈ es ∧ e.port = 1 ∧ e.tags = [(200, 0)] ∧ ¬ Allowed conf p k e := by
  obtain ⟨seen, hr⟩ := fooled_reach
  obtain ⟨es, h1, h2⟩ := send_proc (r := fooled) (k := pkt 2 0x30 0x20 [])
    (l := [(portController, [(200, 0)]), (4, [(200, 0)]), (1, [(200, 0)])]) (by decide +kernel)
  obtain ⟨e, he, hp, ht⟩ := emit_of_outs (es := es) (n := 1) (tags := [(200, 0)]) (by rw [h2]; simp)
  refine ⟨_, { number := 2, native := some 200 }, _, es, e, conf_wf, hr, by simp [conf], wire_pkt (by decide), rfl, h1, he, hp, ht, ?_⟩
  have hvid : ∀ {vid inner}, Carried { number := 2, native := some 200 } (pkt 2 0x30 0x20 []).tags vid inner → vid = 200 := by
    intro vid inner hc
    cases hc with
    | untagged h => exact (Option.some.inj h).symm
  intro ha
  cases ha with
  | control h => rw [hp] at h; exact absurd h (by decide)
  | controller h => rw [hp] at h; exact absurd h (by decide)
  | mirror hc hq hin hm =>
    rw [hvid hc] at hin
    rw [hp] at hm
    simp only [conf, List.mem_cons, List.not_mem_nil, or_false] at hq
    rcases hq with rfl | rfl | rfl | rfl | rfl <;> simp at hm
  | member hc hq hn hr =>
    rw [hvid hc] at hr
    rw [hp] at hn
    simp only [conf, List.mem_cons, List.not_mem_nil, or_false] at hq
    rcases hq with rfl | rfl | rfl | rfl | rfl <;> simp at hn
    rcases hr with ⟨h, -⟩ | ⟨h, -⟩
    · exact absurd h (by decide)
    · exact absurd h (by decide)

/-! ## Ports that are not enabled -/

def confOff : Cfg where
  ports := [{ number := 1, native := some 100 }, { number := 2, native := some 100, enabled := false }]
  vlans := [{ vid := 100 }]

def bootedOff : Ctl × List OfMsg :=
  (play confOff (Ctl.init, []) (.connect 1000 [1, 2] (fun _ => none))).getD (Ctl.init, [])

/-- A port with `enabled: false` does not let packets in, but packets of its VLAN are still flooded to it: the port stays in
the member lists of the VLAN (`faucet/vlan.py` 302-318), and floods only leave out ports that are down. -/
theorem disabled_port_flooded_defect : ∃ s es, Reach confOff (fun k => Wire k ∧ Plain confOff k) s ∧
    Proc s.sw 0 (pkt 1 0x20 0xffffffffffff []) es ∧ ∃ e ∈ es, e.port = 2 := by
  have hr : Reach confOff (fun k => Wire k ∧ Plain confOff k) ⟨bootedOff.1, swOf bootedOff, fun _ => False⟩ :=
    play_start (played (by decide +kernel))
  obtain ⟨es, h1, h2⟩ := send_proc (r := bootedOff) (k := pkt 1 0x20 0xffffffffffff [])
    (l := [(portController, [(100, 0)]), (2, [])]) (by decide +kernel)
  obtain ⟨e, he, hp, ht⟩ := emit_of_outs (es := es) (n := 2) (tags := []) (by rw [h2]; simp)
  exact ⟨_, es, hr, h1, e, he, hp⟩

/-! ## Hairpinning with the egress pipeline -/

def hairPort : LPort where
  number := 1
  native := some 100
  hairpinUnicast := true

def confHair (e : Bool) : Cfg where
  ports := [hairPort, { number := 2, native := some 100 }]
  vlans := [{ vid := 100 }]
  egressPipeline := e

theorem confHair_wf : (confHair true).WF := by
  refine ⟨by decide, by decide, by decide, by decide, ?_, ?_, mirrors_all (by decide)⟩
  · intro p hp vid h
    refine ⟨{ vid := 100 }, by simp [confHair], ?_⟩
    simp only [confHair, List.mem_cons, List.not_mem_nil, or_false] at hp
    rcases hp with rfl | rfl <;> simpa [hairPort] using h
  · intro p hp vid h
    simp only [confHair, List.mem_cons, List.not_mem_nil, or_false] at hp
    rcases hp with rfl | rfl <;> simp [hairPort]

def hair0 (e : Bool) : Ctl × List OfMsg :=
  (play (confHair e) (Ctl.init, []) (.connect 1000 [1, 2] (fun _ => none))).getD (Ctl.init, [])
def hair1 (e : Bool) : Ctl × List OfMsg := (play (confHair e) (hair0 e) (.packetIn 1001 (pin 1 [(100, 0)] 0x20))).getD (Ctl.init, [])
def hair2 (e : Bool) : Ctl × List OfMsg := (play (confHair e) (hair1 e) (.packetIn 1002 (pin 1 [(100, 0)] 0x30))).getD (Ctl.init, [])

theorem hair_reach : ∃ seen, Reach (confHair true) (fun k => Wire k ∧ Plain (confHair true) k) ⟨(hair2 true).1, swOf (hair2 true), seen⟩ := by
  have h0 : Reach (confHair true) (fun k => Wire k ∧ Plain (confHair true) k) ⟨(hair0 true).1, swOf (hair0 true), fun _ => False⟩ :=
    play_start (played (by decide +kernel))
  obtain ⟨s1, h1⟩ := learn_step (r' := hair1 true) (now := 1001) confHair_wf h0 (p := hairPort) (by simp [confHair])
    (k := pkt 1 0x20 0x99 []) (wire_pkt (by decide)) (plain_pkt (by decide)) rfl
    (l := [(portController, [(100, 0)]), (2, [])]) (by decide +kernel) (tags := [(100, 0)]) (by simp) rfl
    (played (by decide +kernel))
  exact learn_step (r' := hair2 true) (now := 1002) confHair_wf h1 (p := hairPort) (by simp [confHair])
    (k := pkt 1 0x30 0x99 []) (wire_pkt (by decide)) (plain_pkt (by decide)) rfl
    (l := [(portController, [(100, 0)]), (2, [])]) (by decide +kernel) (tags := [(100, 0)]) (by simp) rfl
    (played (by decide +kernel))

theorem hair_hosts : (Learn.host (hair2 true).1.learn 100 0x20).map (fun e => e.port.number) = some 1 ∧
    (Learn.host (hair2 true).1.learn 100 0x30).map (fun e => e.port.number) = some 1 := by decide +kernel

/-- Without the egress pipeline, a packet between two hosts on a port with `hairpin_unicast` goes back through the port. -/
example : send (hair2 false) (pkt 1 0x30 0x20 []) = some [(1, [])] := by decide +kernel

/-- With the egress pipeline it is lost, although both hosts are known: the hairpin rule only says which port the packet goes
to, and the rule of the egress table outputs to the number of the port (`faucet/valve_pipeline.py` 103-141 and 160-178). A
switch does not send a packet back through the port it came from unless told so with `OFPP_IN_PORT`. -/
theorem hairpin_egress_defect : ∃ s es, (confHair true).WF ∧ Reach (confHair true) (fun k => Wire k ∧ Plain (confHair true) k) s ∧
    (Learn.host s.ctl.learn 100 0x20).map (fun e => e.port.number) = some 1 ∧
    (Learn.host s.ctl.learn 100 0x30).map (fun e => e.port.number) = some 1 ∧
    Proc s.sw 0 (pkt 1 0x30 0x20 []) es ∧ es = [] := by
  obtain ⟨seen, hr⟩ := hair_reach
  obtain ⟨es, h1, h2⟩ := send_proc (r := hair2 true) (k := pkt 1 0x30 0x20 []) (l := []) (by decide +kernel)
  refine ⟨_, es, confHair_wf, hr, hair_hosts.1, hair_hosts.2, h1, ?_⟩
  simpa [outs] using h2

/-! ## Port numbers that are equal modulo 4096, with the egress pipeline -/

def confMod : Cfg where
  ports := [{ number := 1, native := some 100 }, { number := 2, native := some 100 }, { number := 4097, native := some 100 }]
  vlans := [{ vid := 100 }]
  egressPipeline := true

theorem confMod_wf : confMod.WF := by
  refine ⟨by decide, by decide, by decide, by decide, ?_, ?_, mirrors_all (by decide)⟩
  · intro p hp vid h
    refine ⟨{ vid := 100 }, by simp [confMod], ?_⟩
    simp only [confMod, List.mem_cons, List.not_mem_nil, or_false] at hp
    rcases hp with rfl | rfl | rfl <;> simpa using h
  · intro p hp vid h
    simp only [confMod, List.mem_cons, List.not_mem_nil, or_false] at hp
    rcases hp with rfl | rfl | rfl <;> simp

def mod0 : Ctl × List OfMsg := (play confMod (Ctl.init, []) (.connect 1000 [1, 2, 4097] (fun _ => none))).getD (Ctl.init, [])
def mod1 : Ctl × List OfMsg := (play confMod mod0 (.packetIn 1001 (pin 1 [(100, 0)] 0x20))).getD (Ctl.init, [])

theorem mod_host : (Learn.host mod1.1.learn 100 0x20).map (fun e => e.port.number) = some 1 := by decide +kernel

/-- With the egress pipeline, only the low 12 bits of the port that a packet goes to are passed to the egress table
(`faucet/faucet_metadata.py` 4-14). If ports 1 and 4097 are both in VLAN 100 then a packet to a host on port 1 leaves
through port 4097 instead. -/
theorem egress_port_alias_defect : ∃ s es, confMod.WF ∧ Reach confMod (fun k => Wire k ∧ Plain confMod k) s ∧
    (Learn.host s.ctl.learn 100 0x20).map (fun e => e.port.number) = some 1 ∧
    Proc s.sw 0 (pkt 2 0x30 0x20 []) es ∧ (∃ e ∈ es, e.port = 4097) ∧ ∀ e ∈ es, e.port ≠ 1 := by
  have h0 : Reach confMod (fun k => Wire k ∧ Plain confMod k) ⟨mod0.1, swOf mod0, fun _ => False⟩ :=
    play_start (played (by decide +kernel))
  obtain ⟨seen, hr⟩ := learn_step (r' := mod1) (now := 1001) confMod_wf h0 (p := { number := 1, native := some 100 }) (by simp [confMod])
    (k := pkt 1 0x20 0x99 []) (wire_pkt (by decide)) (plain_pkt (by decide)) rfl
    (l := [(portController, [(100, 0)]), (2, []), (4097, [])]) (by decide +kernel) (tags := [(100, 0)]) (by simp) rfl
    (played (by decide +kernel))
  obtain ⟨es, h1, h2⟩ := send_proc (r := mod1) (k := pkt 2 0x30 0x20 [])
    (l := [(portController, [(100, 0)]), (4097, [])]) (by decide +kernel)
  obtain ⟨e, he, hp, -⟩ := emit_of_outs (es := es) (n := 4097) (tags := []) (by rw [h2]; simp)
  refine ⟨_, es, confMod_wf, hr, mod_host, h1, ⟨e, he, hp⟩, ?_⟩
  intro e he h
  have : (e.port, e.tags) ∈ outs es := List.mem_map.2 ⟨e, he, rfl⟩
  rw [h2, h] at this
  simp [portController] at this

end Faucet.L2.Ex
