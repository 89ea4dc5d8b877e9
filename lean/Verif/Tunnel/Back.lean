import Verif.Tunnel.Msgs

/-!
# Tunnels within one switch, and the way back of a bi-directional tunnel
-/

namespace Faucet.Tunnel
open Faucet.OF Faucet.Acl Faucet.Stack

/-! ## One switch -/

/-- The instructions of an ACL rule that uses a tunnel, whatever the rule of the tunnel. -/
theorem ruleInst_out {c : Ctx} {r : Rule} {a : Actions} {vid : Nat} (hr : r.actions = some a)
    (ht : TunnelOnly a vid) {rules : Dict Nat Output} (hc : c.tunnels = some rules) {l : List OutAct}
    (hg : rules.get? vid = some (.ordered l)) (hx : NoGoto l) (hgr : NoGroup l) (hne : actsOf l ≠ []) :
    ruleInst c r = some ((if a.allows then allowInst c a else []) ++ [.apply (actsOf l)], []) := by
  obtain ⟨ho, hm, hct, hmet⟩ := ht
  have hemp : rules.isEmpty = false := by
    cases rules with
    | nil => simp at hg
    | cons _ _ => rfl
  have hnot : ∀ keep, tunnelOut keep c.tunnels (some vid) = some ⟨false, actsOf l, [], []⟩ := by
    intro keep
    rw [hc]
    unfold tunnelOut
    simp only [hemp, hg, Option.map_some, Out.setPort, Out.setMsgs, flat_acts, flat_inst, noGoto_inst hx, noGroup_msgs hgr]
    cases keep <;> rfl
  have hout : ∃ b, outputOf c a = some ⟨b, actsOf l, [], []⟩ := by
    unfold outputOf
    rcases ho with ho | ho
    · rw [ho]
      refine ⟨false, ?_⟩
      simp only [buildOut, hnot, Option.map_some, Out.append, dictHead, dictGoto, rewriteVlan, popActs]
      simp
    · rw [ho]
      refine ⟨true, ?_⟩
      simp only [buildOut, List.foldlM_cons, List.foldlM_nil, actOut, hnot]
      simp [Out.append, Out.setPort]
  obtain ⟨b, hout⟩ := hout
  unfold ruleInst
  rw [hr]
  simp only [meterInst, hmet, Option.bind_some, hout, Option.map_some, applyActs, hm, hct, gotoInst, skips]
  by_cases hal : a.allows = true <;> cases b <;> simp [hal, hne]

/-- The rule within one switch. -/
theorem fwd_single {n : Net} {g : Graph} (sh : Shared n g) {l2 vid : Nat} {d : Dest} {s : Source} (hs : s.dp = d.dp)
    (hu : d.dp ∈ g.nodes) {o : Nat} (ho : d.port = some o) (hpos : 0 < o) :
    fwd n d.dp l2 vid d s = some (d.exits ++ (if d.maintain then encap vid d.flag else []) ++ [.port o]) := by
  have hout : outport n d.dp s.dp d.dp d.port = some o := by
    unfold outport
    rw [sh.graph, hs, shortestPath_self sh.wf hu, if_pos (by simp), if_pos rfl, ho]
  unfold fwd
  rw [hout]
  obtain ⟨m, rfl⟩ : ∃ m, o = m + 1 := ⟨o - 1, by omega⟩
  simp only [sourceRules, hs, outEnd]
  rw [if_neg (by tauto), if_neg (by tauto), if_pos (by tauto)]

/-- **C48 within one switch.** The packet leaves at the port only, with the tags it came with (or the tag of the tunnel on
top, if that is asked for). -/
theorem tunnel_single {sw : Switch} {t : Nat} {p : Pkt} {c : Ctx} {r : Rule} {a : Actions} {n : Net} {g : Graph}
    (sh : Shared n g) {l2 vid : Nat} {d : Dest} {s : Source} (hs : s.dp = d.dp) (hu : d.dp ∈ g.nodes) {o : Nat}
    (ho : d.port = some o) (hpos : 0 < o) (hport : o < portInPort) (hi : p.hdr fInPort ≠ some o) (hv : vid < 4096)
    (hx : d.exits = []) (hr : r.actions = some a) (ht : TunnelOnly a vid) (hno : a.allows = false)
    {rules : Dict Nat Output} {l : List OutAct} (hc : c.tunnels = some rules) (hl : fwd n d.dp l2 vid d s = some l)
    (hg : rules.get? vid = some (.ordered l)) {inst : List Inst} {ms : List OfMsg}
    (hb : ruleInst c r = some (inst, ms)) (hp : Picks sw t p (trimInst inst)) (es : List Emit) :
    Proc sw t p es ↔ es = [⟨o, d.outTags vid p.tags, p.hdr⟩] := by
  rw [fwd_single sh hs hu ho hpos, hx, List.nil_append] at hl
  injection hl with hl
  subst hl
  cases hm : d.maintain
  · simp only [hm, Bool.false_eq_true, if_false, List.nil_append] at hg
    rw [ruleInst_out hr ht hc hg (by intro a ha; rw [List.mem_singleton.1 ha]; simp)
      (by intro a ha; rw [List.mem_singleton.1 ha]; simp) (by simp [actsOf, actFlat]), hno] at hb
    injection hb with hb
    injection hb with hb _
    have ht : trimInst inst = [.apply [.output o]] := by
      rw [← hb]
      simp [actsOf, actFlat, trimInst, Inst.isGoto, trimOne, Action.isCt, trimActions, trimStep, Action.isOutput]
    rw [ht] at hp
    rw [proc_done hp rfl, runInst_apply]
    simp only [runActs, emitPort_other hport hi, Dest.outTags, hm]
    simp
  · simp only [hm, if_true] at hg
    have hng : NoGoto (encap vid d.flag ++ [.port o]) := by
      intro x hx t
      simp only [encap, List.mem_append, List.mem_cons, List.not_mem_nil, or_false] at hx
      rcases hx with (rfl | rfl) | rfl <;> simp
    have hgg : NoGroup (encap vid d.flag ++ [.port o]) := by
      intro x hx
      simp only [encap, List.mem_append, List.mem_cons, List.not_mem_nil, or_false] at hx
      rcases hx with (rfl | rfl) | rfl <;> simp
    rw [ruleInst_out hr ht hc hg hng hgg (by simp [actsOf, actFlat, encap]), hno] at hb
    injection hb with hb
    injection hb with hb _
    have ht : trimInst inst = [.apply (entryActs vid d.flag o).dropLast] := by
      rw [← hb]
      exact trim_entry vid d.flag o
    rw [ht] at hp
    rw [proc_done hp rfl, runInst_apply, run_entry_trimmed d.flag hv hport hi]
    simp [Dest.outTags, hm]

/-! ## The way back -/

theorem rev_entry {n : Net} {g : Graph} (sh : Shared n g) (cab : Cabled n) {l2 : Nat} {d : Dest} {s : Source}
    (hb : d.biDir = true) (hu : d.dp ∈ g.nodes) (hc : Connected (Adj g) d.dp s.dp) (hne : d.dp ≠ s.dp) {q : SPort}
    (hq : shortestPathPort n d.dp s.dp = some q) : rev n d.dp l2 d s = some [.port q.num] := by
  obtain ⟨q', h1, h2, _⟩ := shortestPathPort_spec sh hu hc hne
  rw [hq] at h1
  injection h1 with h1
  subst h1
  have hout : outport n d.dp d.dp s.dp s.port = some q.num := by
    unfold outport
    rw [sh.graph, if_pos (path_head sh.wf hu hc), if_neg hne, hq]
    rfl
  unfold rev
  rw [if_pos hb, hout]
  have := (cab.real _ q h2).1
  obtain ⟨m, hm⟩ : ∃ m, q.num = m + 1 := ⟨q.num - 1, by omega⟩
  simp only [hm, reverseRules]
  rw [if_pos ⟨trivial, hne⟩]
  rfl

theorem rev_mid {n : Net} {g : Graph} (sh : Shared n g) (cab : Cabled n) {u l2 : Nat} {d : Dest} {s : Source}
    (hb : d.biDir = true) (hin : u ∈ shortestPath g d.dp s.dp) (hu : u ∈ g.nodes) (hc : Connected (Adj g) u s.dp)
    (hus : u ≠ s.dp) (hne : u ≠ d.dp) {q : SPort} (hq : shortestPathPort n u s.dp = some q) :
    rev n u l2 d s = some [.port q.num] := by
  obtain ⟨q', h1, h2, _⟩ := shortestPathPort_spec sh hu hc hus
  rw [hq] at h1
  injection h1 with h1
  subst h1
  have hout : outport n u d.dp s.dp s.port = some q.num := by
    unfold outport
    rw [sh.graph, if_pos hin, if_neg hus, hq]
    rfl
  unfold rev
  rw [if_pos hb, hout]
  have := (cab.real u q h2).1
  obtain ⟨m, hm⟩ : ∃ m, q.num = m + 1 := ⟨q.num - 1, by omega⟩
  simp only [hm, reverseRules]
  rw [if_neg (by tauto), if_neg (by tauto), if_neg (by tauto)]
  rfl

theorem rev_exit {n : Net} {g : Graph} (sh : Shared n g) {l2 : Nat} {d : Dest} {s : Source} (hb : d.biDir = true)
    (hin : s.dp ∈ shortestPath g d.dp s.dp) (hne : d.dp ≠ s.dp) {o : Nat} (ho : s.port = some o) (hpos : 0 < o) :
    rev n s.dp l2 d s = some [.popVlans 1, .port o] := by
  have hout : outport n s.dp d.dp s.dp s.port = some o := by
    unfold outport
    rw [sh.graph, if_pos hin, if_pos rfl, ho]
  unfold rev
  rw [if_pos hb, hout]
  obtain ⟨m, rfl⟩ : ∃ m, o = m + 1 := ⟨o - 1, by omega⟩
  simp only [reverseRules, outEnd]
  rw [if_neg (by tauto), if_pos (by tauto)]

/-- **C48, the way back.** A packet with the tag of a bi-directional tunnel, marked for the way back, that comes to the
destination switch of the tunnel leaves at the port of the source only, without that tag and with the tags below it. -/
theorem tunnel_back {sw : Nat → Switch} {t l2 vid : Nat} {n : Net} {g : Graph} {d : Dest} {s : Source} {p : Pkt}
    {ts : List (Nat × Nat)} (sh : Shared n g) (cab : Cabled n) (hb : d.biDir = true) (hd : d.dp ∈ g.nodes)
    (hc : Connected (Adj g) d.dp s.dp) (hne : d.dp ≠ s.dp)
    (rdy : ∀ u ∈ shortestPath g d.dp s.dp, u ≠ d.dp → Alone (sw u) t vid reverseFlag (n.ports u) ∧
      ∀ l, rev n u l2 d s = some l → HasRule (sw u) t vid reverseFlag l)
    (ent : ∀ l, rev n d.dp l2 d s = some l → Picks (sw d.dp) t p (trimInst (tunnelInst l)))
    (edge : ∀ q ∈ n.ports d.dp, p.hdr fInPort ≠ some q.num) (ht : p.tags = (vid, reverseFlag) :: ts) {o : Nat}
    (ho : s.port = some o) (hpos : 0 < o) (hreal : o < portInPort) (hhost : ∀ q ∈ n.ports s.dp, q.num ≠ o) :
    ∃ hdr, (∀ f, f ≠ fInPort → f ≠ fMetadata → hdr f = p.hdr f) ∧
      Delivered sw t n (shortestPath g d.dp s.dp) d.dp p (fun es => es = [⟨o, ts, hdr⟩]) := by
  obtain ⟨q, h1, h2, h3, h4, h5, h6⟩ := shortestPathPort_spec sh hd hc hne
  have hv : q.peerDp ∈ g.nodes := (Adj.mem sh.wf h4).2
  have hlen : (shortestPath g d.dp s.dp).length = (shortestPath g q.peerDp s.dp).length + 1 := by rw [h6]; simp
  have htail : ∀ u ∈ shortestPath g q.peerDp s.dp, u ∈ shortestPath g d.dp s.dp ∧ u ≠ d.dp ∧ u ∈ g.nodes ∧
      Connected (Adj g) u s.dp := by
    intro u hu
    refine ⟨by rw [h6]; exact List.mem_cons_of_mem _ hu, ?_, mem_path_connected sh.wf _ rfl hv h5 hu⟩
    rintro rfl
    exact not_in_tail sh.wf _ rfl hv h5 (by omega) hu
  have hsin : s.dp ∈ shortestPath g q.peerDp s.dp := (shortestPath_spec sh.wf hv h5).1.dst_mem
  obtain ⟨q', hq', hn', hd'⟩ := cab.ends _ q h2
  have hfx := rev_exit (l2 := l2) sh hb (htail _ hsin).1 hne ho hpos
  have hpick := ent _ (rev_entry (l2 := l2) sh cab hb hd hc hne h1)
  have h0 := inst_port (l := []) (by intro a ha; cases ha) q.num
  rw [List.nil_append] at h0
  rw [h0] at hpick
  have hstep : ∀ es, Proc (sw d.dp) t p es ↔ es = [⟨q.num, p.tags, p.hdr⟩] := by
    intro es
    rw [proc_done hpick rfl, runInst_apply]
    simp [actsOf, runActs, emitPort_other (cab.real _ q h2).2 (edge q h2)]
  obtain ⟨hdr, h7, h8⟩ := carried (sw := sw) (t := t) (vid := vid) (flag := reverseFlag) (ts := ts)
    (F := fun hdr es => es = [⟨o, ts, hdr⟩]) sh cab
    (d := s.dp) (w0 := shortestPath g q.peerDp s.dp) (R := fun u => (rev n u l2 d s).getD [])
    (by
      intro u hu
      obtain ⟨h9, h10, h11, h12⟩ := htail u hu
      obtain ⟨h13, h14⟩ := rdy u h9 h10
      refine ⟨?_, h13⟩
      by_cases hud : u = s.dp
      · subst hud
        simp only [hfx, Option.getD_some]
        exact h14 _ hfx
      · obtain ⟨r, hr, _⟩ := shortestPathPort_spec sh h11 h12 hud
        have hf := rev_mid (l2 := l2) sh cab hb h9 h11 h12 hud h10 hr
        simp only [hf, Option.getD_some]
        exact h14 _ hf)
    (by
      intro u hu hud r hr
      obtain ⟨h9, h10, h11, h12⟩ := htail u hu
      simp only [rev_mid (l2 := l2) sh cab hb h9 h11 h12 hud h10 hr, Option.getD_some])
    (by
      intro x hx1 hx2 es
      obtain ⟨h9, h10, h11, h12⟩ := htail _ hsin
      obtain ⟨h13, h14⟩ := rdy _ h9 h10
      have hrule := h14 _ hfx
      rw [exit_step (maintain := false) (exits := []) (n := o) (by intro a ha; cases ha) hrule h13 (by rw [hx1]; rfl) hx2]
      obtain ⟨y, hy1, hy2⟩ := hx2
      have hyo : y.num ≠ o := hhost y hy1
      simp only [actsOf, List.flatMap_nil, List.nil_append, runActs]
      rw [emitPort_other hreal (by simp only [hy2]; simpa using hyo)]
      simp [hx1])
    _ q.peerDp (arrive ⟨q.num, p.tags, p.hdr⟩ q.peerNum) q' rfl hv h5 (fun x hx => hx) ht hq'
    (by rw [hn']; simp [arrive]) (by rw [hd', hlen])
  refine ⟨hdr, ?_, ?_⟩
  · intro f hf1 hf2
    rw [h7 f hf1 hf2]
    simp [arrive, hf1, hf2]
  · rw [h6]
    exact .hop hstep h2 h3 rfl h8

/-- After the messages of `update` a switch has the rule of the way back to the only source of the tunnel. -/
theorem update_installs_back {enc : Enc} (he : EncOk enc) {m : Mgr} {n : Net} {u l2 : Nat} {t : Table} {a : TAcl}
    {dyn dyn' : Dyn} {ms : List OfMsg} (h : update enc m n u l2 t a dyn = some (dyn', ms)) (hw : Wired a)
    (hdp : a.acl ∉ m.dpAcls) (hports : ∀ s ∈ a.sources, s.dp = u → s.port ≠ none)
    (hu : ∀ r ∈ a.acl.rules, Unambiguous r) {vid : Nat} {d : Dest} (hd : (vid, d) ∈ a.dests) {s : Source}
    (hs : a.sources = [s]) {l : List OutAct} (hl : rev n u l2 d s = some l) (sw : Switch) :
    HasRule (sw.execAll ms) t.id vid reverseFlag l := by
  unfold update at h
  obtain ⟨own, hown, h⟩ := Option.map_eq_some_iff.1 h
  injection h with _ h
  subst h
  have hng : NoGroup l := noGroup_rev hl
  have hb : d.biDir = true := by
    unfold rev at hl
    split at hl
    · assumption
    · cases hl
  have hfwd : ∀ e ∈ a.dests, Leaves (fwdMsgs n u l2 t e.1 e.2 a.sources) (slotOf t vid reverseFlag) (bodyOf t l) := by
    intro e hmem
    apply leaves_flatMap
    intro x hx
    by_cases hxu : x.dp = u
    · rw [if_pos hxu]; exact leaves_nil _ _
    · rw [if_neg hxu]
      cases hf : fwd n u l2 e.1 e.2 x with
      | none => exact leaves_nil _ _
      | some k =>
        refine leaves_other t (noGroup_fwd (hw.noGroup _ hmem) hf) (hw.legal _ hmem) (hw.legal _ hd) ?_ _
        intro hev
        have : e = (vid, d) := List.inj_on_of_nodup_map hw.ids hmem hd hev
        subst this
        unfold Dest.flag
        cases hr : d.reverse
        · simp [reverseFlag, tunnelFlag]
        · rw [hw.oneWay _ hd hr] at hb
          cases hb
  have hrev : ∀ e ∈ a.dests, Leaves (revMsgs n u l2 t e.1 e.2 a.sources) (slotOf t vid reverseFlag) (bodyOf t l) := by
    intro e hmem
    apply leaves_flatMap
    intro x hx
    rw [hs] at hx
    have hxs := List.mem_singleton.1 hx
    subst hxs
    cases hf : rev n u l2 e.2 x with
    | none => exact leaves_nil _ _
    | some k =>
      by_cases hev : e.1 = vid
      · have : e = (vid, d) := List.inj_on_of_nodup_map hw.ids hmem hd hev
        subst this
        simp only at hf
        rw [hl] at hf
        injection hf with hf
        rw [← hf]
        exact (puts_tunnelMsgs t vid reverseFlag l).leaves
      · exact leaves_other t (noGroup_rev hf) (hw.legal _ hmem) (hw.legal _ hd) (fun h => absurd h hev) _
  have hpath : Puts (pathMsgs n u l2 t a) (slotOf t vid reverseFlag) (bodyOf t l) := by
    unfold pathMsgs
    refine puts_flatMap (x := (vid, d)) (fun e hmem => (hfwd e hmem).append (hrev e hmem)) hd ?_
    intro sw'
    rw [execAll_append]
    have : revMsgs n u l2 t vid d a.sources = tunnelMsgs t vid reverseFlag l := by
      unfold revMsgs
      rw [hs]
      simp [hl]
    simp only [this]
    exact puts_tunnelMsgs t vid reverseFlag l _
  exact ⟨bodyOf t l, (hpath.append (leaves_own he hdp hports hu hown hng)) sw, rfl⟩

end Faucet.Tunnel
