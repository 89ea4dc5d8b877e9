import Verif.AclSw.Inv
import Verif.L2.Delivery
import Verif.L2.Known

/-! # C71: ACLs of ports on a switch -/

namespace Faucet.AclSw
open Faucet.OF Faucet.Acl

variable {c : SCfg} {enc : Enc} {cfgs : AclsOf → Prop} {ok : Pkt → Prop}

theorem noBan_lifts {sw l : Switch} (h : Lifts sw l) (hn : L2.NoBan sw) : L2.NoBan l := by
  intro sl b hb hh hi
  have := h.flows sl
  rw [hb] at this
  refine hn sl.shift b.shift this hh ?_
  show shiftInst b.inst = []
  rw [hi]
  rfl

/-- What becomes of a packet that the ACLs let through. -/
theorem switched (hw : c.l2.WF) (hb : c.l2.Basic) {s : Sys} {u : Nat → Bool} {inst : PortCfg} {l : Switch} (hi : Inv c enc cfgs s u inst l)
    {p : L2.LPort} (hp : p ∈ c.l2.ports) (ht : L2.Takes u p) {k : Pkt} (hk : L2.Wire k) (hin : k.hdr fInPort = some p.number) {es : List Emit}
    (hes : Proc l 0 k es) : Switched c.l2 s.l2 p k es := by
  refine ⟨L2.vlan_isolation_partial hw hi.run.reach hp hk hin hes, ?_, ?_⟩
  · intro hban vid inner src dst ho
    exact L2.delivery_partial hw hb hi.run (noBan_lifts hi.lifts hban) hp ht ho hes
  · intro hban vid inner src dst ho hnew
    exact L2.new_source_told_partial hw hb hi.run (noBan_lifts hi.lifts hban) hp ht ho hes hnew

/-- **C71.** A packet that comes in through a port that is up: the ACLs of the port decide which copies they send and whether, and
as what, the packet is switched. If it is, its other copies are those that switching makes of it: they stay in its VLAN, and it is
flooded or goes to the port of its destination. If it is not, there are no other copies. -/
theorem acls_then_switching_partial (hw : c.l2.WF) (hb : c.l2.Basic) (he : EncOk enc) (hg : ∀ a, cfgs a → ∀ n, AclsGood (a n))
    (hok : ∀ k, ok k → Sound c enc cfgs k) {s : Sys} {u : Nat → Bool} (hrun : Run c enc cfgs ok s u) {p : L2.LPort} (hp : p ∈ c.l2.ports)
    (ht : L2.Takes u p) {k : Pkt} (hk : L2.Wire k) (hin : k.hdr fInPort = some p.number) {es : List Emit} (hes : Proc s.l2.sw 0 k es) :
    ∃ cs o, Verdict enc (s.acls p.number) p.number k cs o ∧
      match o with
      | none => es = cs
      | some k' => ∃ rest, es = cs ++ rest ∧ Switched c.l2 s.l2 p k' rest := by
  obtain ⟨inst, l, hi⟩ := run_inv hw hb he hg hok hrun
  rcases decides he hi (hg _ hi.cfg) hin hes with ⟨-, h⟩ | ⟨p', hp', hpn, cs, o, hv, h⟩
  · exfalso
    rcases h with h | ⟨p', hp', hpn, ho⟩
    · rw [hi.ups p hp ht.1 ht.2.2] at h; cases h
    · rw [L2.port_inj hw hp' hp hpn, ht.2.1] at ho; cases ho
  · refine ⟨cs, o, hv, ?_⟩
    rcases h with ⟨rfl, rfl⟩ | ⟨k', rest, rfl, rfl, hrest⟩
    · rfl
    · obtain ⟨h1, h2⟩ := (verdict_tame (hg _ hi.cfg _) hv).2 k' rfl
      exact ⟨rest, rfl, switched hw hb hi hp ht (h2 hk) (h1.trans hin) hrest⟩

/-- **C71.** Whatever the state of the port that a packet comes in through: every copy is one that the ACLs of the port send, or a copy of what
they let through, which stays in its VLAN. A packet from a port that is output-only or not configured goes nowhere. -/
theorem acls_isolate_partial (hw : c.l2.WF) (hb : c.l2.Basic) (he : EncOk enc) (hg : ∀ a, cfgs a → ∀ n, AclsGood (a n))
    (hok : ∀ k, ok k → Sound c enc cfgs k) {s : Sys} {u : Nat → Bool} (hrun : Run c enc cfgs ok s u) {n : Nat} {k : Pkt} (hk : L2.Wire k)
    (hin : k.hdr fInPort = some n) {es : List Emit} (hes : Proc s.l2.sw 0 k es) {e : Emit} (hmem : e ∈ es) :
    ∃ p ∈ c.l2.ports, p.number = n ∧ p.outputOnly = false ∧ ∃ cs o, Verdict enc (s.acls n) n k cs o ∧
      (e ∈ cs ∨ ∃ k', o = some k' ∧ L2.SameContent k' e ∧ L2.Allowed c.l2 p k' e) := by
  obtain ⟨inst, l, hi⟩ := run_inv hw hb he hg hok hrun
  have hout : ∀ p ∈ c.l2.ports, p.number = n → p.outputOnly = false := by
    intro p hp hpn
    cases ho : p.outputOnly with
    | false => rfl
    | true =>
      exfalso
      have hflows : portFlows enc c.mgr (inst n) = [] := by
        cases hq : inst n with
        | none => rfl
        | some q =>
          obtain ⟨p', hp', hpn', rfl, -⟩ := hi.insts n q hq
          obtain rfl := L2.port_inj hw hp' hp (hpn'.trans hpn.symm)
          exact outputOnly_flows ho
      rw [slice_empty hi.sliced n hflows k (port_hits.2 hin) es hes] at hmem
      cases hmem
  rcases decides he hi (hg _ hi.cfg) hin hes with ⟨rfl, -⟩ | ⟨p, hp, hpn, cs, o, hv, h⟩
  · cases hmem
  · refine ⟨p, hp, hpn, hout p hp hpn, cs, o, hv, ?_⟩
    rcases h with ⟨-, rfl⟩ | ⟨k', rest, rfl, rfl, hrest⟩
    · exact Or.inl hmem
    · rcases List.mem_append.1 hmem with hm | hm
      · exact Or.inl hm
      · obtain ⟨h1, h2⟩ := (verdict_tame (hg _ hi.cfg _) hv).2 k' rfl
        have := L2.vlan_isolation_partial hw hi.run.reach hp (h2 hk) (by rw [h1, hin, hpn]) hrest e hm
        exact Or.inr ⟨k', rfl, this⟩

/-- **C71.** FAUCET hears only of packets that ACLs let through: if it heard of an address on a port, then a packet came in through that
port, the ACLs that the port had at the time let it through, and it then had the address as its source. -/
theorem heard_passed_partial (hw : c.l2.WF) (hb : c.l2.Basic) (he : EncOk enc) (hg : ∀ a, cfgs a → ∀ n, AclsGood (a n))
    (hok : ∀ k, ok k → Sound c enc cfgs k) {s : Sys} {u : Nat → Bool} (hrun : Run c enc cfgs ok s u) {x : L2.PacketIn} (hx : s.l2.seen x) :
    ∃ acls k cs k', cfgs acls ∧ ok k ∧ k.hdr fInPort = some x.port ∧ Verdict enc (acls x.port) x.port k cs (some k') ∧
      (k'.hdr fEthSrc).getD 0 = x.src := by
  induction hrun with
  | start => exact hx.elim
  | event _ _ _ _ _ _ ih => exact ih hx
  | timeout _ _ _ ih => exact ih hx
  | aclChange _ _ _ _ _ ih => exact ih hx
  | @packet s u k es hrun hk hes ih =>
    rcases hx with hx | ⟨e, hmem, hp, rfl⟩
    · exact ih hx
    · obtain ⟨inst, l, hi⟩ := run_inv hw hb he hg hok hrun
      obtain ⟨n, hn⟩ := (hok k hk).port
      have hwire := (hok k hk).wire
      rcases decides he hi (hg _ hi.cfg) hn hes with ⟨rfl, -⟩ | ⟨p, hpm, hpn, cs, o, hv, h⟩
      · cases hmem
      · have htame := verdict_tame (hg _ hi.cfg n) hv
        have hreal : k.hdr fInPort ≠ some portController := by
          rw [hn, ← hpn]
          intro h
          have := hw.real p hpm
          rw [Option.some.inj h] at this
          exact absurd this (by decide)
        rcases h with ⟨-, rfl⟩ | ⟨k', rest, rfl, rfl, hrest⟩
        · exact absurd hp (htame.1 hreal e hmem)
        · rcases List.mem_append.1 hmem with hm | hm
          · exact absurd hp (htame.1 hreal e hm)
          · obtain ⟨h1, h2⟩ := htame.2 k' rfl
            have hsame := (L2.vlan_isolation_partial hw hi.run.reach hpm (h2 hwire) (by rw [h1, hn, hpn]) hrest e hm).1
            have hport : (L2.Emit.toPacketIn e).port = n := by
              show (e.hdr fInPort).getD 0 = n
              rw [hsame fInPort (by decide), h1, hn]
              rfl
            refine ⟨s.acls, k, cs, k', hi.cfg, hk, by rw [hport]; exact hn, by rw [hport]; exact hv, ?_⟩
            show _ = (e.hdr fEthSrc).getD 0
            rw [hsame fEthSrc (by decide)]

/-- **C71.** Where FAUCET knows a host, it is because of a packet that ACLs let through: the host is on a member of its VLAN, and a packet
came in through that very port, the ACLs that the port had at the time let it through, and it then had the address of
the host as its source. So with an ACL that allows only the right sources on a port, other hosts are never taken to be there. -/
theorem hosts_passed_partial (hw : c.l2.WF) (hb : c.l2.Basic) (he : EncOk enc) (hg : ∀ a, cfgs a → ∀ n, AclsGood (a n))
    (hok : ∀ k, ok k → Sound c enc cfgs k) {s : Sys} {u : Nat → Bool} (hrun : Run c enc cfgs ok s u) {vid m : Nat}
    {e : HostCache.Entry} (hh : Learn.host s.l2.ctl.learn vid m = some e) :
    (∃ q ∈ c.l2.ports, q.number = e.port.number ∧ q.In vid) ∧
    ∃ acls k cs k', cfgs acls ∧ ok k ∧ k.hdr fInPort = some e.port.number ∧
      Verdict enc (acls e.port.number) e.port.number k cs (some k') ∧ (k'.hdr fEthSrc).getD 0 = m := by
  obtain ⟨inst, l, hi⟩ := run_inv hw hb he hg hok hrun
  refine ⟨L2.hosts_on_members_partial hw hi.run.reach hh, ?_⟩
  obtain ⟨x, hx, hm, hp, -⟩ := L2.known_was_heard hw hi.run.reach hh
  obtain ⟨acls, k, cs, k', h1, h2, h3, h4, h5⟩ := heard_passed_partial hw hb he hg hok hrun hx
  rw [hp] at h3 h4
  exact ⟨acls, k, cs, k', h1, h2, h3, h4, h5.trans hm⟩

/-- **C71.** Without limits on the number of hosts, no rule drops packets for a while, so that packets that ACLs let through are delivered. -/
theorem unlimited_never_bans (hw : c.l2.WF) (hb : c.l2.Basic) (he : EncOk enc) (hg : ∀ a, cfgs a → ∀ n, AclsGood (a n))
    (hok : ∀ k, ok k → Sound c enc cfgs k) (hl : c.l2.Unlimited) {s : Sys} {u : Nat → Bool} (hrun : Run c enc cfgs ok s u) : L2.NoBan s.l2.sw := by
  obtain ⟨inst, l, hi⟩ := run_inv hw hb he hg hok hrun
  intro sl b hsb hh
  by_cases hz : sl.table = 0
  · exact absurd (hi.eternal sl b hsb hz).1 hh
  · obtain ⟨a, rfl⟩ := unshift_slot hz
    rw [hi.lifts.flows] at hsb
    obtain ⟨b', hb', rfl⟩ := Option.map_eq_some_iff.1 hsb
    have := L2.unlimited_never_bans hw hb hl hi.run a b' hb' hh
    intro h
    have h : shiftInst b'.inst = [] := h
    exact this (List.map_eq_nil_iff.1 h)

end Faucet.AclSw
