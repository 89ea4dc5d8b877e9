import Verif.L2.Delivery
import Verif.L2.Examples

/-! # One standalone switch, delivery: cases that meet the hypotheses -/

namespace Faucet.L2.Ex
open Faucet.OF

theorem run_start {c : Cfg} {ok : Pkt → Prop} {now : Int} {up : List Nat} {lag : Nat → LagChange} {r : Ctl × List OfMsg}
    (h : play c (Ctl.init, []) (.connect now up lag) = some r) : Run c ok ⟨r.1, swOf r, fun _ => False⟩ (fun i => up.contains i) := by
  unfold play at h
  obtain ⟨x, hx, h⟩ := Option.bind_eq_some_iff.1 h
  obtain ⟨out, ho, rfl⟩ := Option.map_eq_some_iff.1 h
  exact .start (sh := id) (bar := true) (fun l => List.Perm.refl l) hx ho

theorem run_event {c : Cfg} {ok : Pkt → Prop} {r r' : Ctl × List OfMsg} {ev : Ev} {seen : PacketIn → Prop} {u : Nat → Bool}
    (h : Run c ok ⟨r.1, swOf r, seen⟩ u) (he : ∀ now k, ev = .packetIn now k → seen k) (hp : play c r ev = some r') :
    Run c ok ⟨r'.1, swOf r', seen⟩ (ev.upAfter u) := by
  unfold play at hp
  obtain ⟨x, hx, hp⟩ := Option.bind_eq_some_iff.1 hp
  obtain ⟨out, ho, rfl⟩ := Option.map_eq_some_iff.1 hp
  have := Run.event (sh := id) (bar := true) h (fun l => List.Perm.refl l) he hx ho
  have hs : swOf (x.2, r.2 ++ out) = (swOf r).execAll out := by simp [swOf, Switch.execAll]
  rw [hs]
  exact this

/-- A packet comes in, goes to FAUCET, and FAUCET handles it. -/
theorem run_learn {c : Cfg} (hw : c.WF) {r r' : Ctl × List OfMsg} {seen : PacketIn → Prop} {u : Nat → Bool}
    (h : Run c (fun k => Wire k ∧ Plain c k) ⟨r.1, swOf r, seen⟩ u) {p : LPort} (hp : p ∈ c.ports) {k : Pkt} (hk : Wire k)
    (hpl : Plain c k) (hin : k.hdr fInPort = some p.number) {l : List (Nat × List (Nat × Nat))} (hs : send r k = some l)
    {tags : List (Nat × Nat)} (ht : (portController, tags) ∈ l) {src : Nat} (hsrc : k.hdr fEthSrc = some src) {now : Int}
    (hev : play c r (.packetIn now ⟨p.number, tags, src⟩) = some r') :
    ∃ seen', Run c (fun k => Wire k ∧ Plain c k) ⟨r'.1, swOf r', seen'⟩ u := by
  obtain ⟨es, h1, h2⟩ := send_proc hs
  obtain ⟨e, he, hpc, htg⟩ := emit_of_outs (es := es) (n := portController) (tags := tags) (by rw [h2]; exact ht)
  have hgood := vlan_isolation_partial hw h.reach hp hk hin h1 e he
  have hr : Run c (fun k => Wire k ∧ Plain c k)
      ⟨r.1, swOf r, fun x => seen x ∨ ∃ e ∈ es, e.port = portController ∧ x = Emit.toPacketIn e⟩ u := .packet h ⟨hk, hpl⟩ h1
  have hpin : Emit.toPacketIn e = ⟨p.number, tags, src⟩ := by
    unfold Emit.toPacketIn
    rw [htg, hgood.1 _ (by decide), hgood.1 _ (by decide), hin, hsrc]
    rfl
  exact ⟨_, run_event hr (fun now k hk => by cases hk; exact Or.inr ⟨e, he, hpc, hpin.symm⟩) hev⟩

/-! ## A switch with two VLANs

Ports 1 and 5 are in VLAN 100, port 2 in VLAN 200, port 3 in both, tagged. Port 1 is mirrored to port 4. Either flooding rule
per VLAN, or per port. -/

def dp1 : LPort where
  number := 1
  native := some 100
  mirror := [4]
  maxHosts := 0
def dp3 : LPort where
  number := 3
  tagged := [100, 200]
  receiveLldp := true
  maxHosts := 0
def dp5 : LPort where
  number := 5
  maxHosts := 0
  native := some 100

def confD (comb : Bool) : Cfg where
  ports := [dp1, { number := 2, native := some 200, maxHosts := 0 }, dp3, { number := 4, outputOnly := true, maxHosts := 0 }, dp5]
  vlans := [{ vid := 100, maxHosts := 0 }, { vid := 200, maxHosts := 0 }]
  combinatorial := comb

theorem confD_wf (b : Bool) : (confD b).WF := by
  refine ⟨by cases b <;> decide, by cases b <;> decide, by cases b <;> decide, by cases b <;> decide, ?_, ?_, mirrors_all (by cases b <;> decide)⟩
  · intro p hp vid h
    simp only [confD, List.mem_cons, List.not_mem_nil, or_false] at hp
    rcases hp with rfl | rfl | rfl | rfl | rfl <;> simp [dp1, dp3, dp5] at h
    · exact ⟨{ vid := 100, maxHosts := 0 }, by simp [confD], h⟩
    · exact ⟨{ vid := 200, maxHosts := 0 }, by simp [confD], h⟩
    · rcases h with rfl | rfl
      · exact ⟨{ vid := 100, maxHosts := 0 }, by simp [confD], rfl⟩
      · exact ⟨{ vid := 200, maxHosts := 0 }, by simp [confD], rfl⟩
    · exact ⟨{ vid := 100, maxHosts := 0 }, by simp [confD], h⟩
  · intro p hp vid h
    simp only [confD, List.mem_cons, List.not_mem_nil, or_false] at hp
    rcases hp with rfl | rfl | rfl | rfl | rfl <;> simp [dp1, dp3, dp5] at h ⊢

theorem confD_basic (b : Bool) : (confD b).Basic := by
  cases b <;> exact ⟨by decide, by decide, by decide, by decide, by decide, by decide, by decide, by decide, by decide, by decide⟩

theorem confD_unlimited (b : Bool) : (confD b).Unlimited := by cases b <;> exact ⟨by decide, by decide⟩

def upD : List Nat := [1, 2, 3, 4, 5]

def bootD (b : Bool) : Ctl × List OfMsg := (play (confD b) (Ctl.init, []) (.connect 1000 upD (fun _ => none))).getD (Ctl.init, [])

theorem bootD_run (b : Bool) : Run (confD b) (fun k => Wire k ∧ Plain (confD b) k) ⟨(bootD b).1, swOf (bootD b), fun _ => False⟩
    (fun i => upD.contains i) := run_start (played (by cases b <;> decide +kernel))

def learnD (b : Bool) : Ctl × List OfMsg := (play (confD b) (bootD b) (.packetIn 1001 (pin 3 [(100, 5)] 0x20))).getD (Ctl.init, [])

theorem learnD_run (b : Bool) : ∃ seen, Run (confD b) (fun k => Wire k ∧ Plain (confD b) k) ⟨(learnD b).1, swOf (learnD b), seen⟩
    (fun i => upD.contains i) :=
  run_learn (confD_wf b) (bootD_run b) (p := dp3) (by simp [confD])
    (k := pkt 3 0x20 0x30 [(100, 5)]) (wire_pkt (by decide)) (plain_pkt (by decide)) rfl
    (l := [(portController, [(100, 5)]), (1, []), (4, []), (5, [])]) (by cases b <;> decide +kernel) (by simp) rfl
    (played (by cases b <;> decide +kernel))

theorem ord5 (b : Bool) (dst : Nat) (hd : dst < 0x1000000) : Ordinary (confD b) dp5 (pkt 5 0x30 dst []) 100 [] 0x30 dst where
  port := rfl
  from_ := rfl
  to_ := rfl
  notBroadcast := by decide
  notGateway := by cases b <;> decide
  mac := by omega
  notReserved := by omega
  type := by simp [pkt, fEthType, fInPort, fEthSrc, fEthDst]
  wire := wire_pkt (by decide)
  carried := .untagged rfl

theorem dp5_takes : Takes (fun i => upD.contains i) dp5 := ⟨rfl, rfl, rfl⟩

theorem known_case {b : Bool} {r : Ctl × List OfMsg} {seen : PacketIn → Prop} {u : Nat → Bool}
    (h : Run (confD b) (fun k => Wire k ∧ Plain (confD b) k) ⟨r.1, swOf r, seen⟩ u) (hu : Takes u dp5)
    {l : List (Nat × List (Nat × Nat))} (hl : send r (pkt 5 0x30 0x20 []) = some l)
    (hh : (Learn.host r.1.learn 100 0x20).map (fun e => e.port.number) = some 3) :
    ∃ es, Proc (swOf r) 0 (pkt 5 0x30 0x20 []) es ∧ GetsOne dp3 (pkt 5 0x30 0x20 []) 100 [] es ∧ outs es = l := by
  obtain ⟨es, h1, h2⟩ := send_proc hl
  have hk : Sys.Knows ⟨r.1, swOf r, seen⟩ 100 0x20 dp3 := by
    obtain ⟨e, he, hn⟩ := Option.map_eq_some_iff.1 hh
    exact ⟨e, he, hn⟩
  exact ⟨es, h1, known_host_gets_partial (confD_wf b) (confD_basic b) h
    (unlimited_never_bans (confD_wf b) (confD_basic b) (confD_unlimited b) h) (by simp [confD]) hu (ord5 b 0x20 (by decide)) h1
    (by simp [confD]) hk (by simp [dp3, dp5]), h2⟩

/-- A packet to a host that FAUCET knows on port 3 leaves through port 3, once and tagged. -/
example (b : Bool) : ∃ es, Proc (swOf (learnD b)) 0 (pkt 5 0x30 0x20 []) es ∧ GetsOne dp3 (pkt 5 0x30 0x20 []) 100 [] es ∧
    outs es = [(portController, [(100, 0)]), (3, [(100, 0)])] := by
  obtain ⟨seen, h⟩ := learnD_run b
  exact known_case h dp5_takes (by cases b <;> decide +kernel) (by cases b <;> decide +kernel)

theorem new_case {b : Bool} {r : Ctl × List OfMsg} {u : Nat → Bool}
    (h : Run (confD b) (fun k => Wire k ∧ Plain (confD b) k) ⟨r.1, swOf r, fun _ => False⟩ u) (hu : Takes u dp5)
    {l : List (Nat × List (Nat × Nat))} (hl : send r (pkt 5 0x30 0x99 []) = some l) :
    ∃ es, Proc (swOf r) 0 (pkt 5 0x30 0x99 []) es ∧ Flooded (confD b) dp5 (pkt 5 0x30 0x99 []) 100 [] es ∧ copies dp5 es = [] ∧
    (∃ e ∈ es, e.port = portController ∧ (Emit.toPacketIn e).src = 0x30) ∧ outs es = l := by
  have hb := unlimited_never_bans (confD_wf b) (confD_basic b) (confD_unlimited b) h
  obtain ⟨es, h1, h2⟩ := send_proc hl
  have hno : ∀ m, ¬ Sys.Heard ⟨r.1, swOf r, fun _ => False⟩ m := by rintro m ⟨x, hx, -⟩; exact hx
  exact ⟨es, h1,
    unknown_is_flooded_partial (confD_wf b) (confD_basic b) h hb (by simp [confD]) hu (ord5 b 0x99 (by decide)) h1 (Or.inr (hno _)),
    no_return_partial (confD_wf b) (confD_basic b) h hb (by simp [confD]) hu (ord5 b 0x99 (by decide)) h1,
    new_source_told_partial (confD_wf b) (confD_basic b) h hb (by simp [confD]) hu (ord5 b 0x99 (by decide)) h1 (hno _), h2⟩

/-- A packet to an address that FAUCET never heard of leaves through ports 1 and 3, and to the mirror of port 1. -/
example (b : Bool) : ∃ es, Proc (swOf (bootD b)) 0 (pkt 5 0x30 0x99 []) es ∧ Flooded (confD b) dp5 (pkt 5 0x30 0x99 []) 100 [] es ∧
    copies dp5 es = [] ∧ (∃ e ∈ es, e.port = portController ∧ (Emit.toPacketIn e).src = 0x30) ∧
    outs es = [(portController, [(100, 0)]), (3, [(100, 0)]), (1, []), (4, [])] :=
  new_case (bootD_run b) dp5_takes (by cases b <;> decide +kernel)

end Faucet.L2.Ex
