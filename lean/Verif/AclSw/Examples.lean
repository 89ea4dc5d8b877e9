import Verif.AclSw.Props
import Verif.Acl.Examples
import Verif.L2.DeliveryExamples

/-! # ACLs of ports on a switch: cases that meet the hypotheses -/

namespace Faucet.AclSw.Ex
open Faucet.OF Faucet.Acl
open Faucet.L2 (Ctl LagChange PacketIn Ev)
open Faucet.L2.Ex (confD confD_wf confD_basic confD_unlimited dp5 upD pkt wire_pkt pin swOf within_swOf emit_of_outs dp5_takes)

/-! The switch of the examples of the area `L2`, with ACLs on port 5: packets from host 0x30 are mirrored to port 4 and pass, those from
host 0x31 pass with another destination, those from host 0x32 are only sent to port 2, all others are dropped. -/

def sc : SCfg := { l2 := confD false }

def r30 : Rule := { fields := [(.new fEthSrc, .int 0x30)], actions := some { mirror := some 4, allow := some 1 } }
def r31 : Rule := { fields := [(.new fEthSrc, .int 0x31)], actions := some { output := some (.dict { setFields := [(fEthDst, 0x20)] }), allow := some 1 } }
def r32 : Rule := { fields := [(.new fEthSrc, .int 0x32)], actions := some { output := some (.dict { port := some 2 }) } }

def acl5 : List Acl.Acl := [⟨[r30, r31], false⟩, ⟨[r32], false⟩]

def acls0 : AclsOf := fun n => if n = 5 then acl5 else []

/-- The ACLs that there ever are. -/
def cfgs : AclsOf → Prop := fun a => ∀ n, a n = [] ∨ a n = acl5

theorem all5 : allRules acl5 = [r30, r31, r32] := rfl

theorem acl5_ok : AclsOk acl5 := by
  refine ⟨?_, ?_, by decide, by decide⟩
  · intro r hr a o ha ho
    rw [all5] at hr
    simp only [List.mem_cons, List.not_mem_nil, or_false] at hr
    rcases hr with rfl | rfl | rfl <;> simp [r30, r31, r32] at ha <;> subst ha <;> simp at ho <;> subst ho <;> simp [Output.failover]
  · intro r hr
    rw [all5] at hr
    simp only [List.mem_cons, List.not_mem_nil, or_false] at hr
    rcases hr with rfl | rfl | rfl <;> unfold Unambiguous <;> decide

theorem acl5_good : AclsGood acl5 := by
  refine ⟨fun _ => acl5_ok, ?_⟩
  intro r hr a ha
  rw [all5] at hr
  simp only [List.mem_cons, List.not_mem_nil, or_false] at hr
  rcases hr with rfl | rfl | rfl <;> (simp only [r30, r31, r32, Option.some.injEq] at ha; subst ha)
  · exact ⟨⟨(fun o h => by cases h), rfl, Or.inl rfl⟩, rfl, (by decide), (by decide), (fun o h => by cases h), (fun o h => by cases h)⟩
  · refine ⟨⟨?_, rfl, Or.inl rfl⟩, rfl, by decide, by decide, ?_, ?_⟩
    · intro o h; cases h
      exact ⟨⟨(fun v h => by cases h), (fun v h => by cases h), (fun v h => by cases h), by decide⟩, rfl, rfl⟩
    · intro o h; cases h; decide
    · intro o h; cases h; decide
  · refine ⟨⟨?_, rfl, Or.inl rfl⟩, rfl, by decide, by decide, ?_, ?_⟩
    · intro o h; cases h
      exact ⟨⟨(fun v h => by cases h), (fun v h => by cases h), (fun v h => by cases h), by decide⟩, rfl, rfl⟩
    · intro o h; cases h; decide
    · intro o h; cases h; decide

theorem cfgs_good : ∀ a, cfgs a → ∀ n, AclsGood (a n) := by
  intro a ha n
  rcases ha n with h | h <;> rw [h]
  · exact ⟨fun h => absurd rfl h, fun r hr => absurd hr List.not_mem_nil⟩
  · exact acl5_good

theorem cfgs0 : cfgs acls0 := by
  intro n
  unfold acls0
  split
  · exact Or.inr rfl
  · exact Or.inl rfl

theorem cfgs_set {a : AclsOf} (h : cfgs a) (n : Nat) : cfgs (setAcls a n []) := by
  intro i
  unfold setAcls
  split
  · exact Or.inl rfl
  · exact h i

/-- The packets. -/
def okP : Pkt → Prop := Sound sc encEx cfgs

/-- An untagged packet is one the theorems are about. -/
theorem sound_untagged {n src dst : Nat} : okP (pkt n src dst []) := by
  refine ⟨⟨n, rfl⟩, wire_pkt (by decide), ?_⟩
  intro acls n' cs k' hc _ hv p _ _ _
  cases hv with
  | noAcls _ => rfl
  | @allow r a hne hf ha _ =>
    rcases hc n' with h | h
    · exact absurd h hne
    · rw [h, all5] at hf
      obtain ⟨pre, post, hs, -⟩ := hf
      have hm : r ∈ [r30, r31, r32] := by rw [hs]; exact List.mem_append.2 (Or.inr List.mem_cons_self)
      simp only [List.mem_cons, List.not_mem_nil, or_false] at hm
      rcases hm with rfl | rfl | rfl <;> (simp only [r30, r31, r32, Option.some.injEq] at ha; subst ha; rfl)

def play (acls : AclsOf) (r : Ctl × List OfMsg) (ev : Ev) : Option (Ctl × List OfMsg) :=
  (sc.l2.react r.1 ev).bind (fun x => (FlowReorder.reorder id true x.1).bind (fun out =>
    (sc.aclMsgs encEx acls ev).map (fun am => (x.2, r.2 ++ (out.map OfMsg.shift ++ am)))))

theorem played {acls : AclsOf} {r : Ctl × List OfMsg} {ev : Ev} (h : (play acls r ev).isSome) :
    play acls r ev = some ((play acls r ev).getD (Ctl.init, [])) := by
  obtain ⟨x, hx⟩ := Option.isSome_iff_exists.1 h
  rw [hx]; rfl

theorem swOf_append (a : Ctl) (l m : List OfMsg) (b : Ctl) : swOf (a, l ++ m) = (swOf (b, l)).execAll m := by
  simp [swOf, Switch.execAll]

theorem run_start {acls : AclsOf} (hc : cfgs acls) {now : Int} {up : List Nat} {lag : Nat → LagChange} {r : Ctl × List OfMsg}
    (h : play acls (Ctl.init, []) (.connect now up lag) = some r) :
    Run sc encEx cfgs okP ⟨⟨r.1, swOf r, fun _ => False⟩, acls⟩ (fun i => up.contains i) := by
  unfold play at h
  obtain ⟨x, hx, h⟩ := Option.bind_eq_some_iff.1 h
  obtain ⟨out, ho, h⟩ := Option.bind_eq_some_iff.1 h
  obtain ⟨am, ha, rfl⟩ := Option.map_eq_some_iff.1 h
  have := Run.start (ok := okP) (sw0 := emptySwitch) (sh := id) (bar := true) hc (fun l => List.Perm.refl l) hx ho ha
  simpa [swOf, Switch.execAll] using this

theorem run_event {acls : AclsOf} {r r' : Ctl × List OfMsg} {ev : Ev} {seen : PacketIn → Prop} {u : Nat → Bool}
    (h : Run sc encEx cfgs okP ⟨⟨r.1, swOf r, seen⟩, acls⟩ u) (he : ∀ now k, ev = .packetIn now k → seen k) (hp : play acls r ev = some r') :
    Run sc encEx cfgs okP ⟨⟨r'.1, swOf r', seen⟩, acls⟩ (ev.upAfter u) := by
  unfold play at hp
  obtain ⟨x, hx, hp⟩ := Option.bind_eq_some_iff.1 hp
  obtain ⟨out, ho, hp⟩ := Option.bind_eq_some_iff.1 hp
  obtain ⟨am, ha, rfl⟩ := Option.map_eq_some_iff.1 hp
  have := Run.event (sh := id) (bar := true) h (fun l => List.Perm.refl l) he hx ho ha
  have hs : swOf (x.2, r.2 ++ (out.map OfMsg.shift ++ am)) = ((swOf r).execAll (out.map OfMsg.shift)).execAll am := by simp [swOf, Switch.execAll]
  rw [hs]
  exact this

def send (r : Ctl × List OfMsg) (k : Pkt) : Option (List (Nat × List (Nat × Nat))) := L2.Ex.send r k

def boot : Ctl × List OfMsg := (play acls0 (Ctl.init, []) (.connect 1000 upD (fun _ => none))).getD (Ctl.init, [])

theorem boot_some : play acls0 (Ctl.init, []) (.connect 1000 upD (fun _ => none)) = some boot := played (by decide +kernel)

theorem boot_run : Run sc encEx cfgs okP ⟨⟨boot.1, swOf boot, fun _ => False⟩, acls0⟩ (fun i => upD.contains i) :=
  run_start cfgs0 boot_some

/-- The packet of host 0x30 is mirrored, FAUCET is told of it, and it is flooded. -/
example : send boot (pkt 5 0x30 0x20 []) = some [(4, []), (portController, [(100, 0)]), (3, [(100, 0)]), (1, []), (4, [])] := by decide +kernel

/-- That of host 0x32 is only sent to port 2. -/
example : send boot (pkt 5 0x32 0x20 []) = some [(2, [])] := by decide +kernel

/-- That of another host is dropped. -/
example : send boot (pkt 5 0x33 0x20 []) = some [] := by decide +kernel

theorem meets_src {r : Rule} {m src : Nat} (hr : r.fields = [(.new fEthSrc, .int m)]) :
    Meets encEx (some 5) none r (pkt 5 src 0x20 []) ↔ src = m := by
  constructor
  · intro h
    obtain ⟨x, mask, w, e1, e2, e3⟩ := h.fields (.new fEthSrc) (.int m) fEthSrc (by rw [hr]; exact List.mem_singleton.2 rfl) rfl (by decide) (by decide)
    simp only [encEx] at e1
    rw [if_neg (by decide)] at e1
    obtain ⟨rfl, rfl⟩ := Prod.mk.inj (Option.some.inj e1)
    have : (pkt 5 src 0x20 []).field fEthSrc = some src := rfl
    rw [this] at e2
    obtain rfl := Option.some.inj e2
    simpa [maskEq] using e3
  · rintro rfl
    refine ⟨(fun n h => by obtain rfl := Option.some.inj h; rfl), (fun v h => by cases h), ?_⟩
    intro k v f hm hk _ _
    rw [hr] at hm
    obtain ⟨rfl, rfl⟩ := Prod.mk.inj (List.mem_singleton.1 hm)
    simp only [keyField] at hk
    obtain rfl := Option.some.inj hk
    exact ⟨src, none, src, rfl, rfl, by simp [maskEq]⟩

/-- What the ACLs say of the packets of hosts 0x31 and 0x33. -/
theorem verdict31 : Verdict encEx acl5 5 (pkt 5 0x31 0x20 []) [] (some (rewritten { setFields := [(fEthDst, 0x20)] } (pkt 5 0x31 0x20 []))) := by
  refine Verdict.allow (r := r31) (a := { output := some (.dict { setFields := [(fEthDst, 0x20)] }), allow := some 1 }) (by decide) ?_ rfl (Or.inl rfl)
  refine ⟨[r30], [r32], rfl, (meets_src rfl).2 rfl, ?_⟩
  intro q hq
  rw [List.mem_singleton.1 hq, meets_src (m := 0x30) rfl]
  decide

theorem verdict33 : Verdict encEx acl5 5 (pkt 5 0x33 0x20 []) [] none := by
  refine Verdict.noRule (by decide) ?_
  intro r hr
  rw [all5] at hr
  simp only [List.mem_cons, List.not_mem_nil, or_false] at hr
  rcases hr with rfl | rfl | rfl
  · rw [meets_src (m := 0x30) rfl]; decide
  · rw [meets_src (m := 0x31) rfl]; decide
  · rw [meets_src (m := 0x32) rfl]; decide

/-- The theorem on ACLs and switching applies to the packet of host 0x30. -/
example : ∃ es cs o, Proc (swOf boot) 0 (pkt 5 0x30 0x20 []) es ∧ outs es = [(4, []), (portController, [(100, 0)]), (3, [(100, 0)]), (1, []), (4, [])] ∧
    Verdict encEx acl5 5 (pkt 5 0x30 0x20 []) cs o ∧
    match o with
    | none => es = cs
    | some k' => ∃ rest, es = cs ++ rest ∧ Switched sc.l2 ⟨boot.1, swOf boot, fun _ => False⟩ dp5 k' rest := by
  obtain ⟨es, h1, h2⟩ := L2.Ex.send_proc (r := boot) (k := pkt 5 0x30 0x20 [])
    (l := [(4, []), (portController, [(100, 0)]), (3, [(100, 0)]), (1, []), (4, [])]) (by decide +kernel)
  obtain ⟨cs, o, hv, h⟩ := acls_then_switching_partial (confD_wf false) (confD_basic false) encEx_ok cfgs_good (fun _ h => h) boot_run
    (p := dp5) (by simp [sc, confD]) dp5_takes (wire_pkt (by decide)) rfl h1
  exact ⟨es, cs, o, h1, h2, hv, h⟩

/-- The one on isolation applies to each of its copies, also if the port is not up; and nothing is dropped for a while. -/
example : (∃ es, Proc (swOf boot) 0 (pkt 5 0x30 0x20 []) es ∧ es.length = 5 ∧ ∀ e ∈ es, ∃ p ∈ sc.l2.ports, p.number = 5 ∧ p.outputOnly = false ∧
      ∃ cs o, Verdict encEx (acls0 5) 5 (pkt 5 0x30 0x20 []) cs o ∧
        (e ∈ cs ∨ ∃ k', o = some k' ∧ L2.SameContent k' e ∧ L2.Allowed sc.l2 p k' e)) ∧ L2.NoBan (swOf boot) := by
  obtain ⟨es, h1, h2⟩ := L2.Ex.send_proc (r := boot) (k := pkt 5 0x30 0x20 [])
    (l := [(4, []), (portController, [(100, 0)]), (3, [(100, 0)]), (1, []), (4, [])]) (by decide +kernel)
  refine ⟨⟨es, h1, ?_, ?_⟩, unlimited_never_bans (confD_wf false) (confD_basic false) encEx_ok cfgs_good (fun _ h => h) (confD_unlimited false) boot_run⟩
  · have := congrArg List.length h2
    simpa [outs] using this
  · intro e he
    exact acls_isolate_partial (confD_wf false) (confD_basic false) encEx_ok cfgs_good (fun _ h => h) boot_run (wire_pkt (by decide)) rfl h1 he

/-! FAUCET learns host 0x30, then the ACLs of the port are removed. -/

def learnt : Ctl × List OfMsg := (play acls0 boot (.packetIn 1001 (pin 5 [(100, 0)] 0x30))).getD (Ctl.init, [])

theorem learnt_some : play acls0 boot (.packetIn 1001 (pin 5 [(100, 0)] 0x30)) = some learnt := played (by decide +kernel)

/-- The packets that FAUCET gets. -/
def toldOf (es : List Emit) : List (Nat × List (Nat × Nat) × Nat) :=
  (es.filter (fun e => e.port == portController)).map (fun e => ((L2.Emit.toPacketIn e).port, (L2.Emit.toPacketIn e).tags, (L2.Emit.toPacketIn e).src))

theorem told_some : (evalProc (addSlots boot.2) (swOf boot) 20 0 (pkt 5 0x30 0x20 [])).map toldOf = some [(5, [(100, 0)], 0x30)] := by
  decide +kernel

theorem learnt_run : ∃ seen, seen (pin 5 [(100, 0)] 0x30) ∧ Run sc encEx cfgs okP ⟨⟨learnt.1, swOf learnt, seen⟩, acls0⟩ (fun i => upD.contains i) := by
  obtain ⟨es, h1, h2⟩ := Option.map_eq_some_iff.1 told_some
  have hp := evalProc_sound (within_swOf boot) h1
  have hm : (5, [(100, 0)], 0x30) ∈ toldOf es := by rw [h2]; exact List.mem_singleton.2 rfl
  obtain ⟨e, he, hx⟩ := List.mem_map.1 hm
  obtain ⟨he, hc⟩ := List.mem_filter.1 he
  have hr := Run.packet boot_run sound_untagged hp
  have hs : L2.Emit.toPacketIn e = pin 5 [(100, 0)] 0x30 := by
    obtain ⟨a, hx⟩ := Prod.mk.inj hx
    obtain ⟨b, d⟩ := Prod.mk.inj hx
    have : L2.Emit.toPacketIn e = ⟨(L2.Emit.toPacketIn e).port, (L2.Emit.toPacketIn e).tags, (L2.Emit.toPacketIn e).src⟩ := rfl
    rw [this, a, b, d]
    rfl
  have hseen : (fun x => False ∨ ∃ e ∈ es, e.port = portController ∧ x = L2.Emit.toPacketIn e) (pin 5 [(100, 0)] 0x30) :=
    Or.inr ⟨e, he, eq_of_beq hc, hs.symm⟩
  exact ⟨_, hseen, run_event hr (fun now k hk => by cases hk; exact hseen) learnt_some⟩

theorem learnt_host : ∃ e, Learn.host learnt.1.learn 100 0x30 = some e ∧ e.port.number = 5 := by
  have : (Learn.host learnt.1.learn 100 0x30).map (fun e => e.port.number) = some 5 := by decide +kernel
  exact Option.map_eq_some_iff.1 this

/-- FAUCET heard of host 0x30 on port 5 and knows it there; the theorems on what was heard apply. -/
example : ∃ seen acls k cs k', seen (pin 5 [(100, 0)] 0x30) ∧
    Run sc encEx cfgs okP ⟨⟨learnt.1, swOf learnt, seen⟩, acls0⟩ (fun i => upD.contains i) ∧ cfgs acls ∧ k.hdr fInPort = some 5 ∧
    Verdict encEx (acls 5) 5 k cs (some k') ∧ (k'.hdr fEthSrc).getD 0 = 0x30 := by
  obtain ⟨seen, hs, hr⟩ := learnt_run
  obtain ⟨acls, k, cs, k', h1, -, h2, h3, h4⟩ := heard_passed_partial (confD_wf false) (confD_basic false) encEx_ok cfgs_good (fun _ h => h) hr hs
  exact ⟨seen, acls, k, cs, k', hs, hr, h1, h2, h3, h4⟩

example : ∃ acls k cs k', cfgs acls ∧ okP k ∧ k.hdr fInPort = some 5 ∧ Verdict encEx (acls 5) 5 k cs (some k') ∧ (k'.hdr fEthSrc).getD 0 = 0x30 := by
  obtain ⟨seen, hs, hr⟩ := learnt_run
  obtain ⟨e, he, hn⟩ := learnt_host
  have := (hosts_passed_partial (confD_wf false) (confD_basic false) encEx_ok cfgs_good (fun _ h => h) hr he).2
  rw [hn] at this
  exact this

/-- The ACLs of port 5 are removed: then packets of any host pass. -/
def opened : Ctl × List OfMsg := (learnt.1, learnt.2 ++ (coldStartPort encEx sc.mgr (aport (setAcls acls0 5 []) dp5)).getD [])

theorem opened_some : ∃ am, coldStartPort encEx sc.mgr (aport (setAcls acls0 5 []) dp5) = some am ∧ opened = (learnt.1, learnt.2 ++ am) := by
  have : (coldStartPort encEx sc.mgr (aport (setAcls acls0 5 []) dp5)).isSome = true := by decide +kernel
  obtain ⟨am, h⟩ := Option.isSome_iff_exists.1 this
  refine ⟨am, h, ?_⟩
  unfold opened
  rw [h]
  rfl

theorem learnt_running : learnt.1.running = true := by decide +kernel

theorem opened_run : ∃ seen, Run sc encEx cfgs okP ⟨⟨opened.1, swOf opened, seen⟩, setAcls acls0 5 []⟩ (fun i => upD.contains i) := by
  obtain ⟨seen, -, hr⟩ := learnt_run
  obtain ⟨am, h, ho⟩ := opened_some
  have := Run.aclChange (p := dp5) hr learnt_running (by simp [sc, confD]) (cfgs_set cfgs0 5) h
  refine ⟨seen, ?_⟩
  rw [ho, swOf_append learnt.1 learnt.2 am learnt.1]
  exact this

example : send opened (pkt 5 0x33 0x99 []) = some [(portController, [(100, 0)]), (3, [(100, 0)]), (1, []), (4, [])] := by decide +kernel

end Faucet.AclSw.Ex
