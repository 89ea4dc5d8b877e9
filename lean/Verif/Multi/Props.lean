import Verif.Multi.Dispatch
import Verif.L2.Delivery

/-! # Several switches: every switch is handled as if it were the only one (C72) -/

namespace Faucet.Multi
open Faucet.OF Faucet.L2

theorem reorder_nil {sh : List OfMsg → List OfMsg} (hsh : ∀ l, (sh l).Perm l) (bar : Bool) : FlowReorder.reorder sh bar [] = some [] := by
  have h0 : sh [] = [] := (hsh []).eq_nil
  have h1 : ∀ key, FlowReorder.dedupe sh false key [] = [] := fun _ => rfl
  have h2 : ∀ key, FlowReorder.dedupe sh true key [] = [] := fun _ => h0
  have h3 : FlowReorder.dedupeOverlaps sh false FlowReorder.strKey [] = some [] := by
    unfold FlowReorder.dedupeOverlaps
    rw [h1]
    rfl
  unfold FlowReorder.reorder FlowReorder.suppressed FlowReorder.ofKind
  simp [FlowReorder.keepIfEmpty, FlowReorder.emit, h1, h2, h3]

/-- A connection makes a switch run, a disconnection stops it, and nothing else does either. -/
theorem react_running {c : Cfg} {s : Ctl} {ev : Ev} {r : List OfMsg × Ctl} (h : c.react s ev = some r) :
    r.2.running = match ev with | .connect .. => true | .disconnect .. => false | _ => s.running := by
  cases ev with
  | connect now up lag => cases h; rfl
  | disconnect now lag =>
    obtain ⟨x, -, rfl⟩ := Option.map_eq_some_iff.1 h
    rfl
  | packetIn now k =>
    simp only [Cfg.react] at h
    split at h
    · obtain ⟨x, -, rfl⟩ := Option.map_eq_some_iff.1 h; rfl
    · cases h; rfl
  | expire now vid =>
    simp only [Cfg.react] at h
    split at h
    · obtain ⟨x, -, rfl⟩ := Option.map_eq_some_iff.1 h; rfl
    · cases h; rfl
  | portUp now n lag =>
    simp only [Cfg.react] at h
    split at h <;> (cases h; rfl)
  | portDown now n lag =>
    simp only [Cfg.react] at h
    split at h <;> (cases h; rfl)
  | lag n sel act =>
    simp only [Cfg.react] at h
    split at h
    · split at h <;> (cases h; rfl)
    · cases h; rfl
  | srcRemoved vid n m =>
    obtain ⟨x, -, rfl⟩ := Option.map_eq_some_iff.1 h; rfl
  | dstRemoved now vid m =>
    obtain ⟨x, -, rfl⟩ := Option.map_eq_some_iff.1 h; rfl

theorem _root_.Faucet.L2.Run.mono {c : Cfg} {ok ok' : Pkt → Prop} {s : Sys} {u : Nat → Bool} (h : L2.Run c ok s u)
    (hk : ∀ k, ok k → ok' k) : L2.Run c ok' s u := by
  induction h with
  | start h1 h2 h3 => exact .start h1 h2 h3
  | event _ h1 h2 h3 h4 ih => exact .event ih h1 h2 h3 h4
  | packet _ h1 h2 ih => exact .packet ih (hk _ h1) h2
  | timeout _ h1 h2 ih => exact .timeout ih h1 h2

/-- The state of a switch: not connected yet, or one that FAUCET with this switch alone can be in. -/
def Alone (c : Cfg) (ok : Pkt → Prop) (v : Valve) (sw : Switch) (conn : Bool) (seen : PacketIn → Prop) (up : Nat → Bool) : Prop :=
  v.cfg = c ∧ v.ctl.running = conn ∧
  ((conn = false ∧ v.ctl = Ctl.init ∧ ∀ x, ¬ seen x) ∨ L2.Run c ok ⟨v.ctl, sw, seen⟩ up)

structure Inv (cs : Dict Nat Cfg) (ok : Nat → Pkt → Prop) (s : Net) : Prop where
  keys : s.valves.keys = cs.keys
  each : ∀ id c, cs.get? id = some c →
    ∃ v, s.valves.get? id = some v ∧ Alone c (ok id) v (s.sw id) (s.conn id) (s.seen id) (s.up id)
  unknown : ∀ id, cs.get? id = none → s.conn id = false

theorem startValves_get? (cs : Dict Nat Cfg) (id : Nat) : (startValves cs).get? id = (cs.get? id).map (fun c => ⟨c, Ctl.init⟩) := by
  unfold startValves
  induction cs with
  | nil => rfl
  | cons e cs ih =>
    obtain ⟨k, c⟩ := e
    rw [List.map_cons, Dict.get?_cons, Dict.get?_cons]
    split
    · rfl
    · exact ih

theorem keys_set_of {α : Type} {d : Dict Nat α} {k : Nat} {v w : α} (h : d.get? k = some w) : (d.set k v).keys = d.keys := by
  rw [Dict.keys_set, if_pos (Dict.get?_isSome_iff_mem_keys.1 (by rw [h]; rfl))]

/-- The sweep of all VLANs, for one switch. -/
theorem expireVlans_run {c : Cfg} {ok : Pkt → Prop} {sw : Switch} {seen : PacketIn → Prop} {up : Nat → Bool} (hi : c.idleDst = true)
    {now : Int} (vids : List Nat) : ∀ {ctl : Ctl} {r : List OfMsg × Ctl}, L2.Run c ok ⟨ctl, sw, seen⟩ up →
      expireVlans c now vids ([], ctl) = some r → r.1 = [] ∧ r.2.running = ctl.running ∧ L2.Run c ok ⟨r.2, sw, seen⟩ up := by
  induction vids with
  | nil => intro ctl r h he; cases he; exact ⟨rfl, rfl, h⟩
  | cons vid vids ih =>
    intro ctl r h he
    unfold expireVlans at he
    obtain ⟨x, hx, he⟩ := Option.bind_eq_some_iff.1 he
    have hr := react_running hx
    have hm : x.1 = [] := by
      simp only [Cfg.react] at hx
      split at hx
      · obtain ⟨y, hy, rfl⟩ := Option.map_eq_some_iff.1 hx
        unfold Learn.sweep at hy
        obtain ⟨z, -, rfl⟩ := Option.map_eq_some_iff.1 hy
        have : c.learn.idleDst = true := hi
        simp [Ctl.withLearn, this]
      · cases hx; rfl
    obtain ⟨ms, ctl'⟩ := x
    simp only at hm
    subst hm
    have h' : L2.Run c ok ⟨ctl', sw, seen⟩ up :=
      L2.Run.event (sh := id) (bar := false) (out := []) h (fun l => List.Perm.refl l) (fun _ _ h => by cases h) hx (reorder_nil (fun l => List.Perm.refl l) _)
    obtain ⟨h1, h2, h3⟩ := ih h' he
    exact ⟨h1, h2.trans hr, h3⟩

theorem run_inv {cs : Dict Nat Cfg} (hn : cs.keys.Nodup) (hidle : ∀ id c, cs.get? id = some c → c.idleDst = true)
    {ok : Nat → Pkt → Prop} {s : Net} (h : Run cs ok s) : Inv cs ok s := by
  induction h with
  | @start sw0 =>
    refine ⟨?_, ?_, fun _ _ => rfl⟩
    · unfold startValves Dict.keys
      rw [List.map_map]; rfl
    · intro id c hc
      refine ⟨⟨c, Ctl.init⟩, ?_, rfl, rfl, .inl ⟨rfl, rfl, fun _ h => h⟩⟩
      show (startValves cs).get? id = _
      rw [startValves_get?, hc]; rfl
  | @event s id ev out vs sh bar sw hrun hperm hfrom hconn hseen hh hs ih =>
    have hget : ∀ j c, cs.get? j = some c → s.valves.has j = true := by
      intro j c hc
      obtain ⟨v, hv, -⟩ := ih.each j c hc
      unfold Dict.has; rw [hv]; rfl
    have hcs : ∀ j v, s.valves.get? j = some v → ∃ c, cs.get? j = some c := by
      intro j v hv
      have : j ∈ cs.keys := by rw [← ih.keys]; exact Dict.get?_isSome_iff_mem_keys.1 (by rw [hv]; rfl)
      exact Option.isSome_iff_exists.1 (Dict.get?_isSome_iff_mem_keys.2 this)
    have hca : ∀ j, j ≠ id → connAfter s.valves s.conn id ev j = s.conn j := by
      intro j hj
      cases ev <;> simp [connAfter, put, hj]
    -- what the handler does
    have hstep : (∃ v r, s.valves.get? id = some v ∧ v.cfg.react v.ctl ev = some r ∧ out = [(id, r.1)] ∧
          vs = s.valves.set id ⟨v.cfg, r.2⟩) ∨ (s.valves.get? id = none ∧ out = [] ∧ vs = s.valves) := by
      unfold handle getValve at hh
      cases hv : s.valves.get? id with
      | none =>
        simp only [hv, Option.some.injEq, Prod.mk.injEq] at hh
        exact .inr ⟨rfl, hh.1.symm, hh.2.symm⟩
      | some v =>
        obtain ⟨c, hc⟩ := hcs id v hv
        obtain ⟨v', hv', ha⟩ := ih.each id c hc
        rw [hv] at hv'
        obtain rfl : v = v' := by injection hv'
        have hrr : (requireRunning ev && !v.ctl.running) = false := by
          rw [ha.2.1]
          cases ev <;> simp_all [requireRunning]
        simp only [hv, hrr, Bool.false_eq_true, if_false] at hh
        obtain ⟨r, hr, h2⟩ := Option.map_eq_some_iff.1 hh
        simp only [Prod.mk.injEq] at h2
        exact .inl ⟨v, r, rfl, hr, h2.1.symm, h2.2.symm⟩
    rcases hstep with ⟨v, r, hv, hr, rfl, rfl⟩ | ⟨hv, rfl, rfl⟩
    · have hsent := sent [(id, r.1)] (by simp [Dict.keys]) hs
      refine ⟨(keys_set_of hv).trans ih.keys, ?_, ?_⟩
      · intro j c hc
        by_cases hj : j = id
        · subst hj
          obtain ⟨v', hv', ha1, ha2, ha3⟩ := ih.each j c hc
          rw [hv] at hv'
          obtain rfl : v = v' := by injection hv'
          subst ha1
          refine ⟨⟨v.cfg, r.2⟩, Dict.get?_set_self _ _ _, rfl, ?_, ?_⟩
          · have := react_running hr
            rw [this]
            cases ev <;> simp [connAfter, put, ha2, hget j _ hc]
          · refine .inr ?_
            simp only [put_self]
            have hsj := hsent j
            simp only [Dict.get?_cons, if_true, Option.some.injEq] at hsj
            by_cases hd : ∃ now lag, ev = .disconnect now lag
            · obtain ⟨now, lag, rfl⟩ := hd
              have hr' := hr
              obtain ⟨x, -, rfl⟩ := Option.map_eq_some_iff.1 hr'
              have hsw : sw j = s.sw j := by
                rcases hsj with ⟨ms, o, -, hc', -⟩ | ⟨-, h⟩
                · simp [connAfter] at hc'
                · exact h
              rw [hsw]
              have hc' : s.conn j = true := by
                rcases hconn with ⟨_, _, _, h⟩ | h
                · cases h
                · exact h
              have hr2 : L2.Run v.cfg (ok j) ⟨v.ctl, s.sw j, s.seen j⟩ (s.up j) := by
                rcases ha3 with ⟨h, -⟩ | h
                · rw [hc'] at h; cases h
                · exact h
              exact L2.Run.event (sh := id) (bar := false) (out := []) hr2 (fun l => List.Perm.refl l) (fun _ _ h => by cases h) hr
                (reorder_nil (fun l => List.Perm.refl l) _)
            · have hc' : connAfter s.valves s.conn j ev j = true := by
                cases ev with
                | connect now up lag => simp [connAfter, hget j _ hc]
                | disconnect now lag => exact absurd ⟨_, _, rfl⟩ hd
                | _ => simpa [connAfter] using hconn
              obtain ⟨ms, o, rfl, -, ho, hsw⟩ : ∃ ms o, r.1 = ms ∧ connAfter s.valves s.conn j ev j = true ∧
                  FlowReorder.reorder sh (bar j) ms = some o ∧ sw j = (s.sw j).execAll o := by
                rcases hsj with h | ⟨h | h, -⟩
                · exact h
                · cases h
                · rw [hc'] at h; cases h
              rw [hsw]
              rcases ha3 with ⟨h1, h2, h3⟩ | h
              · obtain ⟨now, up, lag, rfl⟩ : ∃ now up lag, ev = .connect now up lag := by
                  rcases hconn with h | h
                  · exact h
                  · rw [h] at h1; cases h1
                have hseen0 : s.seen j = fun _ => False := by
                  funext x; exact propext ⟨h3 x, fun h => h.elim⟩
                rw [h2] at hr
                rw [hseen0]
                exact L2.Run.start hperm hr ho
              · exact L2.Run.event h hperm hseen hr ho
        · obtain ⟨v', hv', ha⟩ := ih.each j c hc
          refine ⟨v', (Dict.get?_set_ne _ _ (fun h => hj h.symm)).trans hv', ?_⟩
          have hsw : sw j = s.sw j := by
            have hj' : ¬ id = j := fun h => hj h.symm
            rcases hsent j with ⟨ms, o, h, -⟩ | ⟨-, h⟩
            · rw [Dict.get?_cons, if_neg hj'] at h; cases h
            · exact h
          simp only [hsw, hca j hj, put_ne _ _ hj]
          exact ha
      · intro j hj
        have hne : j ≠ id := by
          rintro rfl
          obtain ⟨c, hc⟩ := hcs j v hv
          rw [hj] at hc; cases hc
        exact (hca j hne).trans (ih.unknown j hj)
    · have hsw : sw = s.sw := by
        simp only [sendAll, List.foldlM_nil, Option.pure_def, Option.some.injEq] at hs
        exact hs.symm
      subst hsw
      refine ⟨ih.keys, ?_, ?_⟩
      · intro j c hc
        obtain ⟨v', hv', ha⟩ := ih.each j c hc
        have hj : j ≠ id := by
          rintro rfl
          rw [hv] at hv'; cases hv'
        refine ⟨v', hv', ?_⟩
        simp only [hca j hj, put_ne _ _ hj]
        exact ha
      · intro j hj
        by_cases hne : j = id
        · subst hne
          have h0 : s.valves.has j = false := by unfold Dict.has; rw [hv]; rfl
          have := ih.unknown j hj
          cases ev <;> simp [connAfter, h0, this]
        · exact (hca j hne).trans (ih.unknown j hj)
  | @expire s now out vs sh bar sw hrun hperm he hs ih =>
    have hkn : s.valves.keys.Nodup := by rw [ih.keys]; exact hn
    obtain ⟨k1, k2, k3⟩ := service_reaches_every_switch hkn he
    have hsent := sent out k1 hs
    refine ⟨?_, ?_, ih.unknown⟩
    · have hk := serve_keys he
      exact hk.trans ih.keys
    · intro id c hc
      obtain ⟨v, hv, rfl, ha2, ha3⟩ := ih.each id c hc
      obtain ⟨r, hr, hv', ho⟩ := k2 id v hv
      unfold stateExpire at hr
      rcases ha3 with ⟨h1, h2, h3⟩ | hrun
      · rw [ha2, h1] at hr
        simp only [Bool.false_eq_true, if_false, Option.some.injEq] at hr
        subst hr
        refine ⟨v, hv', rfl, ha2, ?_⟩
        exact .inl ⟨h1, h2, h3⟩
      · by_cases hrn : v.ctl.running = true
        · rw [if_pos hrn] at hr
          obtain ⟨x, hx, rfl⟩ := Option.map_eq_some_iff.1 hr
          obtain ⟨e1, e2, e3⟩ := expireVlans_run (hidle id _ hc) _ hrun hx
          refine ⟨⟨v.cfg, x.2⟩, hv', rfl, e2.trans ha2, .inr ?_⟩
          have hsw : sw id = s.sw id := by
            rcases hsent id with ⟨ms, o, h4, -, h5, h6⟩ | ⟨-, h⟩
            · rw [ho] at h4
              obtain rfl : x.1 = ms := by injection h4
              rw [e1, reorder_nil hperm] at h5
              cases h5
              exact h6
            · exact h
          simp only [hsw]
          exact e3
        · rw [if_neg hrn] at hr
          cases hr
          refine ⟨v, hv', rfl, ha2, .inr ?_⟩
          have hsw : sw id = s.sw id := by
            rcases hsent id with ⟨ms, o, h4, -⟩ | ⟨-, h⟩
            · rw [ho] at h4; cases h4
            · exact h
          simp only [hsw]
          exact hrun
  | @packet s id k es hrun hc hok hp ih =>
    refine ⟨ih.keys, ?_, ih.unknown⟩
    intro j c hcj
    obtain ⟨v, hv, h1, h2, h3⟩ := ih.each j c hcj
    refine ⟨v, hv, h1, h2, ?_⟩
    by_cases hj : j = id
    · subst hj
      rcases h3 with ⟨h, -⟩ | h
      · rw [hc] at h; cases h
      · simp only [put_self]
        exact .inr (L2.Run.packet h hok hp)
    · simp only [put_ne _ _ hj]
      exact h3
  | @timeout s id sl b hrun hf ht ih =>
    refine ⟨ih.keys, ?_, ih.unknown⟩
    intro j c hcj
    obtain ⟨v, hv, h1, h2, h3⟩ := ih.each j c hcj
    refine ⟨v, hv, h1, h2, ?_⟩
    by_cases hj : j = id
    · subst hj
      rcases h3 with h | h
      · exact .inl h
      · simp only [put_self]
        exact .inr (L2.Run.timeout h hf ht)
    · simp only [put_ne _ _ hj]
      exact h3

/-! ## The property -/

/-- Switches with different datapath IDs and configurations that make sense. -/
structure Switches (cs : Dict Nat Cfg) : Prop where
  nodup : cs.keys.Nodup
  idle : ∀ id c, cs.get? id = some c → c.idleDst = true

/-- **C72.** Whatever happens at other switches and in whatever order: FAUCET's state for a connected switch, and the flows in
it, are such as FAUCET with that switch alone reaches, and FAUCET takes it to be running. -/
theorem every_switch_alone {cs : Dict Nat Cfg} (hw : Switches cs) {ok : Nat → Pkt → Prop} {s : Net} (h : Run cs ok s) {id : Nat}
    {c : Cfg} (hc : cs.get? id = some c) (hconn : s.conn id = true) :
    ∃ v, s.valves.get? id = some v ∧ v.cfg = c ∧ v.ctl.running = true ∧
      L2.Run c (ok id) ⟨v.ctl, s.sw id, s.seen id⟩ (s.up id) := by
  obtain ⟨v, hv, h1, h2, h3⟩ := (run_inv hw.nodup hw.idle h).each id c hc
  refine ⟨v, hv, h1, h2.trans hconn, ?_⟩
  rcases h3 with ⟨h, -⟩ | h
  · rw [hconn] at h; cases h
  · exact h

/-- **C72.** FAUCET takes exactly the connected switches to be running. -/
theorem running_iff_connected {cs : Dict Nat Cfg} (hw : Switches cs) {ok : Nat → Pkt → Prop} {s : Net} (h : Run cs ok s) (id : Nat) :
    (∃ v, s.valves.get? id = some v ∧ v.ctl.running = true) ↔ s.conn id = true := by
  have hi := run_inv hw.nodup hw.idle h
  cases hc : cs.get? id with
  | none =>
    rw [hi.unknown id hc]
    refine ⟨?_, fun h => by cases h⟩
    rintro ⟨v, hv, -⟩
    have : id ∈ cs.keys := by rw [← hi.keys]; exact Dict.get?_isSome_iff_mem_keys.1 (by rw [hv]; rfl)
    exact absurd this (Dict.get?_eq_none_iff.1 hc)
  | some c =>
    obtain ⟨v, hv, -, h2, -⟩ := hi.each id c hc
    constructor
    · rintro ⟨v', hv', hr⟩
      rw [hv] at hv'
      obtain rfl : v = v' := by injection hv'
      exact h2 ▸ hr
    · intro hconn
      exact ⟨v, hv, h2.trans hconn⟩

/-- **C72.** An event of one switch changes nothing that FAUCET knows of another switch and nothing in it: no message is made
for it. -/
theorem others_untouched {vs vs' : Valves} {id : Nat} {ev : Ev} {out : Out} (h : handle vs id ev = some (out, vs'))
    {sh : List OfMsg → List OfMsg} {bar conn : Nat → Bool} {sw sw' : Nat → Switch} (hs : sendAll sh bar conn sw out = some sw')
    {j : Nat} (hj : j ≠ id) : vs'.get? j = vs.get? j ∧ out.get? j = none ∧ sw' j = sw j := by
  have hj' : ¬ id = j := fun h => hj h.symm
  have key : vs'.get? j = vs.get? j ∧ out.get? j = none ∧ (Dict.keys out).Nodup := by
    unfold handle at h
    split at h
    · cases h; exact ⟨rfl, rfl, by simp [Dict.keys]⟩
    · obtain ⟨r, -, h2⟩ := Option.map_eq_some_iff.1 h
      simp only [Prod.mk.injEq] at h2
      obtain ⟨rfl, rfl⟩ := h2
      exact ⟨Dict.get?_set_ne _ _ hj', by rw [Dict.get?_cons, if_neg hj']; rfl, by simp [Dict.keys]⟩
  refine ⟨key.1, key.2.1, ?_⟩
  rcases sent out key.2.2 hs j with ⟨ms, o, hx, -⟩ | ⟨-, hx⟩
  · rw [key.2.1] at hx; cases hx
  · exact hx

/-- **C72.** A switch that is not configured has no effect, and none is sent anything. -/
theorem unknown_switch_ignored {vs : Valves} {id : Nat} (h : vs.get? id = none) (ev : Ev) : handle vs id ev = some ([], vs) := by
  unfold handle getValve
  rw [h]

/-- **C72.** An event of a connected switch, and a connection, is handled as by FAUCET with that switch alone, and all messages
for it are sent. -/
theorem event_handled {cs : Dict Nat Cfg} (hw : Switches cs) {ok : Nat → Pkt → Prop} {s : Net} (h : Run cs ok s) {id : Nat} {c : Cfg}
    (hc : cs.get? id = some c) {ev : Ev} (hf : fromSwitch ev = true) (hconn : (∃ now up lag, ev = .connect now up lag) ∨ s.conn id = true)
    {out : Out} {vs : Valves} (he : handle s.valves id ev = some (out, vs)) {sh : List OfMsg → List OfMsg} {bar : Nat → Bool}
    {sw : Nat → Switch} (hs : sendAll sh bar (connAfter s.valves s.conn id ev) s.sw out = some sw) :
    ∃ v ms ctl, s.valves.get? id = some v ∧ c.react v.ctl ev = some (ms, ctl) ∧ vs.get? id = some ⟨c, ctl⟩ ∧
      (ms = [] ∨ ∃ o, FlowReorder.reorder sh (bar id) ms = some o ∧ sw id = (s.sw id).execAll o) := by
  obtain ⟨v, hv, rfl, h2, -⟩ := (run_inv hw.nodup hw.idle h).each id c hc
  have hrr : (requireRunning ev && !v.ctl.running) = false := by
    rw [h2]
    cases ev <;> simp_all [requireRunning]
  unfold handle getValve at he
  simp only [hv, hrr, Bool.false_eq_true, if_false] at he
  obtain ⟨r, hr, h3⟩ := Option.map_eq_some_iff.1 he
  simp only [Prod.mk.injEq] at h3
  obtain ⟨rfl, rfl⟩ := h3
  refine ⟨v, r.1, r.2, hv, hr, Dict.get?_set_self _ _ _, ?_⟩
  rcases sent _ (by simp [Dict.keys]) hs id with ⟨ms, o, h4, -, h5, h6⟩ | ⟨h4 | h4, -⟩
  · rw [Dict.get?_cons, if_pos rfl] at h4
    obtain rfl : r.1 = ms := by injection h4
    exact .inr ⟨o, h5, h6⟩
  · rw [Dict.get?_cons, if_pos rfl] at h4; cases h4
  · left
    have hhas : s.valves.has id = true := by unfold Dict.has; rw [hv]; rfl
    cases ev with
    | disconnect now lag =>
      obtain ⟨x, -, rfl⟩ := Option.map_eq_some_iff.1 hr
      rfl
    | connect now up lag => simp [connAfter, hhas] at h4
    | _ =>
      simp only [connAfter] at h4
      rcases hconn with ⟨_, _, _, h⟩ | h
      · cases h
      · rw [h] at h4; cases h4

/-- **C72.** Packets, port changes and removed flows from a switch that is not connected are ignored. -/
theorem not_running_ignored {vs : Valves} {id : Nat} {v : Valve} (hv : vs.get? id = some v) (hr : v.ctl.running = false) {ev : Ev}
    (he : fromSwitch ev = true) (hc : ∀ now up lag, ev ≠ .connect now up lag) (hd : ∀ now lag, ev ≠ .disconnect now lag) :
    handle vs id ev = some ([], vs) := by
  have : requireRunning ev = true := by
    cases ev with
    | connect now up lag => exact absurd rfl (hc _ _ _)
    | disconnect now lag => exact absurd rfl (hd _ _)
    | expire now vid => cases he
    | lag n sel act => cases he
    | _ => rfl
  unfold handle getValve
  rw [hv]
  simp [this, hr]

theorem sweep_local {cfg : Learn.Cfg} {st st' : Learn.St} {now : Int} {vid : Nat} {ms : List OfMsg}
    (h : Learn.sweep cfg st now vid = some (ms, st')) : ∀ vid', vid' ≠ vid → st'.vlan vid' = st.vlan vid' := by
  intro vid' hne
  unfold Learn.sweep Learn.expireHosts at h
  obtain ⟨x, hx, h⟩ := Option.map_eq_some_iff.1 h
  simp only [Prod.mk.injEq] at h
  obtain ⟨-, rfl⟩ := h
  split at hx
  · cases hx; rfl
  · obtain ⟨y, -, rfl⟩ := Option.map_eq_some_iff.1 hx
    simp [Learn.St.setVlan, hne]

theorem sweep_same {cfg : Learn.Cfg} {a b a' b' : Learn.St} {now : Int} {vid : Nat} {ms ms' : List OfMsg} (hv : a.vlan vid = b.vlan vid)
    (ha : Learn.sweep cfg a now vid = some (ms, a')) (hb : Learn.sweep cfg b now vid = some (ms', b')) : a'.vlan vid = b'.vlan vid := by
  unfold Learn.sweep Learn.expireHosts at ha hb
  obtain ⟨x, hx, h1⟩ := Option.map_eq_some_iff.1 ha
  obtain ⟨y, hy, h2⟩ := Option.map_eq_some_iff.1 hb
  simp only [Prod.mk.injEq] at h1 h2
  obtain ⟨-, rfl⟩ := h1
  obtain ⟨-, rfl⟩ := h2
  split at hx
  · rename_i hf
    rw [if_pos hf] at hy
    cases hx; cases hy
    exact hv
  · rename_i hf
    rw [if_neg hf, ← hv] at hy
    obtain ⟨p, hp, rfl⟩ := Option.map_eq_some_iff.1 hx
    rw [hp] at hy
    cases hy
    simp [Learn.St.setVlan, hv]

theorem expireVlans_each {c : Cfg} {now : Int} (vids : List Nat) (hn : vids.Nodup) : ∀ {s r : List OfMsg × Ctl}, s.2.running = true →
    expireVlans c now vids s = some r →
    (∀ vid, vid ∉ vids → r.2.learn.vlan vid = s.2.learn.vlan vid) ∧
    ∀ vid ∈ vids, ∀ ms st', Learn.sweep c.learn s.2.learn now vid = some (ms, st') → r.2.learn.vlan vid = st'.vlan vid := by
  induction vids with
  | nil => intro s r _ h; cases h; exact ⟨fun _ _ => rfl, fun _ hx => absurd hx List.not_mem_nil⟩
  | cons w vids ih =>
    intro s r hr h
    have hn' := List.nodup_cons.1 hn
    unfold expireVlans at h
    obtain ⟨x, hx, h⟩ := Option.bind_eq_some_iff.1 h
    have hrun := react_running hx
    simp only [Cfg.react, hr, if_true] at hx
    obtain ⟨y, hy, rfl⟩ := Option.map_eq_some_iff.1 hx
    obtain ⟨ms1, st1⟩ := y
    obtain ⟨i1, i2⟩ := ih hn'.2 (s := (s.1 ++ ms1, ⟨s.2.running, s.2.dyn, st1, s.2.known⟩)) hr h
    refine ⟨?_, ?_⟩
    · intro vid hv
      rw [i1 vid (fun h => hv (List.mem_cons_of_mem _ h))]
      exact sweep_local hy vid (fun h => hv (h ▸ List.mem_cons_self))
    · intro vid hv ms st' hs
      by_cases he : vid = w
      · subst he
        rw [i1 vid hn'.1]
        rw [hy] at hs
        cases hs
        rfl
      · rcases List.mem_cons.1 hv with h | hm
        · exact absurd h he
        · have hsw := sweep_local hy vid he
          -- the sweep of the VLAN does not depend on the others
          cases hs2 : Learn.sweep c.learn st1 now vid with
          | none =>
            exfalso
            unfold Learn.sweep Learn.expireHosts at hs hs2
            by_cases hf : c.learn.flowRemoved = true
            · rw [if_pos hf] at hs2; cases hs2
            · rw [if_neg hf] at hs hs2
              rw [hsw] at hs2
              cases hc : HostCache.expireCacheHosts (s.2.learn.vlan vid).hosts now c.learn.learnTimeout with
              | none => rw [hc] at hs; cases hs
              | some z => rw [hc] at hs2; cases hs2
          | some z =>
            obtain ⟨ms2, st2⟩ := z
            rw [i2 vid hm ms2 st2 hs2]
            exact sweep_same hsw hs2 hs

/-- **C72.** The periodic sweep expires the hosts of every VLAN of every connected switch: the hosts of a VLAN are then those
that are left when that VLAN of that switch alone is swept. -/
theorem every_switch_expires {cs : Dict Nat Cfg} (hw : Switches cs) {ok : Nat → Pkt → Prop} {s : Net} (h : Run cs ok s) {now : Int}
    {out : Out} {vs : Valves} (he : expireAll now s.valves = some (out, vs)) {id : Nat} {c : Cfg} (hc : cs.get? id = some c)
    (hcw : c.WF) (hconn : s.conn id = true) :
    ∃ v v', s.valves.get? id = some v ∧ vs.get? id = some v' ∧
      ∀ x ∈ c.vlans, ∀ ms st', Learn.sweep c.learn v.ctl.learn now x.vid = some (ms, st') →
        ∀ m, Learn.host v'.ctl.learn x.vid m = Learn.host st' x.vid m := by
  have hi := run_inv hw.nodup hw.idle h
  have hkn : s.valves.keys.Nodup := by rw [hi.keys]; exact hw.nodup
  obtain ⟨-, k2, -⟩ := service_reaches_every_switch hkn he
  obtain ⟨v, hv, rfl, h2, -⟩ := hi.each id c hc
  obtain ⟨r, hr, hv', -⟩ := k2 id v hv
  refine ⟨v, r.2, hv, hv', ?_⟩
  intro x hx ms st' hs m
  have hrun : v.ctl.running = true := h2.trans hconn
  unfold stateExpire at hr
  rw [if_pos hrun] at hr
  obtain ⟨y, hy, rfl⟩ := Option.map_eq_some_iff.1 hr
  obtain ⟨-, e2⟩ := expireVlans_each _ hcw.vnodup hrun hy
  have := e2 x.vid (List.mem_map.2 ⟨x, hx, rfl⟩) ms st' hs
  unfold Learn.host
  simp only [this]

/-- **C72** with C62. VLANs are isolated at every connected switch, whatever happens at the others. -/
theorem every_switch_isolates_partial {cs : Dict Nat Cfg} (hw : Switches cs) {s : Net}
    (h : Run cs (fun id k => Wire k ∧ ∀ c, cs.get? id = some c → Plain c k) s) {id : Nat} {c : Cfg} (hc : cs.get? id = some c)
    (hcw : c.WF) (hconn : s.conn id = true) {p : LPort} (hp : p ∈ c.ports) {k : Pkt} (hk : Wire k)
    (hin : k.hdr fInPort = some p.number) {es : List Emit} (hes : Proc (s.sw id) 0 k es) :
    ∀ e ∈ es, SameContent k e ∧ Allowed c p k e := by
  obtain ⟨v, -, -, -, hr⟩ := every_switch_alone hw h hc hconn
  have hr' : L2.Run c (fun k => Wire k ∧ Plain c k) ⟨v.ctl, s.sw id, s.seen id⟩ (s.up id) :=
    L2.Run.mono hr (fun k hk => ⟨hk.1, hk.2 c hc⟩)
  exact vlan_isolation_partial hcw hr'.reach hp hk hin hes

/-- **C72** with C63. Ordinary packets are delivered by every connected switch, whatever happens at the others. -/
theorem every_switch_delivers_partial {cs : Dict Nat Cfg} (hw : Switches cs) {s : Net}
    (h : Run cs (fun id k => Wire k ∧ ∀ c, cs.get? id = some c → Plain c k) s) {id : Nat} {c : Cfg} (hc : cs.get? id = some c)
    (hcw : c.WF) (hb : c.Basic) (hconn : s.conn id = true) (hban : NoBan (s.sw id)) {p : LPort} (hp : p ∈ c.ports)
    (ht : Takes (s.up id) p) {k : Pkt} {vid : Nat} {inner : List (Nat × Nat)} {src dst : Nat} (ho : Ordinary c p k vid inner src dst)
    {es : List Emit} (hes : Proc (s.sw id) 0 k es) : ∃ v, s.valves.get? id = some v ∧
      (Flooded c p k vid inner es ∨
       ∃ q ∈ c.ports, q.In vid ∧ (∃ x, s.seen id x ∧ x.src = dst) ∧ dst.testBit 40 = false ∧ Unicast c p q k vid inner es ∧
         ∀ e, Learn.host v.ctl.learn vid dst = some e → e.port.number = q.number) := by
  obtain ⟨v, hv, -, -, hr⟩ := every_switch_alone hw h hc hconn
  have hr' : L2.Run c (fun k => Wire k ∧ Plain c k) ⟨v.ctl, s.sw id, s.seen id⟩ (s.up id) :=
    L2.Run.mono hr (fun k hk => ⟨hk.1, hk.2 c hc⟩)
  refine ⟨v, hv, ?_⟩
  rcases delivery_partial hcw hb hr' hban hp ht ho hes with h | ⟨q, hq, h1, h2, h3, h4, h5⟩
  · exact .inl h
  · exact .inr ⟨q, hq, h1, h2, h3, h4, fun e he => h5 { number := e.port.number } ⟨e, he, rfl⟩⟩

theorem forgetAll_total {c : Cfg} (ps : List LPort) : ∀ {st : Learn.St}, Learn.CInv c.learn st → ∃ st', c.forgetAll ps st = some st' := by
  induction ps with
  | nil => intro st _; exact ⟨st, rfl⟩
  | cons p ps ih =>
    intro st hi
    obtain ⟨s1, h1, h2, -⟩ := Learn.portDelete_effect (learn_wf c) hi p.number
    obtain ⟨s2, h3⟩ := ih h2.cinv
    refine ⟨s2, ?_⟩
    unfold Cfg.forgetAll
    rw [h1]
    exact h3

/-- FAUCET with one switch handles every event. -/
theorem react_total {c : Cfg} {s : Ctl} (hi : Learn.CInv c.learn s.learn) (ev : Ev) : ∃ ms ctl, c.react s ev = some (ms, ctl) := by
  cases ev with
  | connect now up lag => exact ⟨_, _, rfl⟩
  | disconnect now lag =>
    obtain ⟨st, h⟩ := forgetAll_total c.ports (cinv_update now c.ports hi)
    simp only [Cfg.react]
    unfold Cfg.updateAll
    rw [h]
    exact ⟨_, _, rfl⟩
  | packetIn now k =>
    simp only [Cfg.react]
    split
    · rename_i vid _
      obtain ⟨ms, st, h, -⟩ := Learn.rcv_outcome (learn_wf c) hi now k.port vid k.src
      have h' : Learn.rcvPacket c.learn s.learn now (c.hostPort k.port) vid k.src = some (ms, st) := h
      rw [h']
      exact ⟨_, _, rfl⟩
    · exact ⟨_, _, rfl⟩
  | expire now vid =>
    simp only [Cfg.react]
    split
    · obtain ⟨ex, st, h, -⟩ := Learn.sweep_effect hi now vid
      rw [h]
      exact ⟨_, _, rfl⟩
    · exact ⟨_, _, rfl⟩
  | portUp now n lag => simp only [Cfg.react]; split <;> exact ⟨_, _, rfl⟩
  | portDown now n lag => simp only [Cfg.react]; split <;> exact ⟨_, _, rfl⟩
  | lag n sel act =>
    simp only [Cfg.react]
    split
    · split <;> exact ⟨_, _, rfl⟩
    · exact ⟨_, _, rfl⟩
  | srcRemoved vid n m =>
    obtain ⟨ms, st, h, -⟩ := Learn.react_cinv (learn_wf c) hi (.srcRemoved vid n m)
    simp only [Cfg.react]
    rw [h]
    exact ⟨_, _, rfl⟩
  | dstRemoved now vid m =>
    obtain ⟨ms, st, h, -⟩ := Learn.react_cinv (learn_wf c) hi (.dstRemoved now vid m)
    simp only [Cfg.react]
    rw [h]
    exact ⟨_, _, rfl⟩

/-- **C72.** No event of any switch makes FAUCET raise an exception. -/
theorem no_event_raises {cs : Dict Nat Cfg} (hw : Switches cs) (hcw : ∀ id c, cs.get? id = some c → c.WF) {s : Net}
    (h : Run cs (fun id k => Wire k ∧ ∀ c, cs.get? id = some c → Plain c k) s) (id : Nat) (ev : Ev) :
    ∃ out vs, handle s.valves id ev = some (out, vs) := by
  have hi := run_inv hw.nodup hw.idle h
  cases hv : s.valves.get? id with
  | none => exact ⟨_, _, unknown_switch_ignored hv ev⟩
  | some v =>
    have : id ∈ cs.keys := by rw [← hi.keys]; exact Dict.get?_isSome_iff_mem_keys.1 (by rw [hv]; rfl)
    obtain ⟨c, hc⟩ := Option.isSome_iff_exists.1 (Dict.get?_isSome_iff_mem_keys.2 this)
    obtain ⟨v', hv', rfl, -, h3⟩ := hi.each id c hc
    rw [hv] at hv'
    obtain rfl : v = v' := by injection hv'
    have hci : Learn.CInv v.cfg.learn v.ctl.learn := by
      rcases h3 with ⟨-, h, -⟩ | h
      · rw [h]
        exact Learn.cinv_init _
      · have hr' : L2.Run v.cfg (fun k => Wire k ∧ Plain v.cfg k) ⟨v.ctl, s.sw id, s.seen id⟩ (s.up id) :=
          L2.Run.mono h (fun k hk => ⟨hk.1, hk.2 _ hc⟩)
        exact (reach_inv (hcw id _ hc) hr'.reach).cinv
    unfold handle
    split
    · exact ⟨_, _, rfl⟩
    · rename_i w hw'
      obtain rfl : v = w := by
        unfold getValve at hw'
        rw [hv] at hw'
        simp only at hw'
        split at hw'
        · cases hw'
        · injection hw'
      obtain ⟨ms, ctl, hr⟩ := react_total hci ev
      rw [hr]
      exact ⟨_, _, rfl⟩

end Faucet.Multi
