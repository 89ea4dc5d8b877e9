import Verif.Tunnel.Model
import Verif.OpenFlow.Datapath
import Verif.Encoding.Props
import Verif.Stack.Path

/-!
# A packet leaves a tunnel as it entered it
-/

namespace Faucet.Tunnel
open Faucet.OF Faucet.Acl Faucet.Stack

/-! ## Specification -/

/-- The packet that arrives at port `i` of a switch when a copy was sent over the link. -/
def arrive (e : Emit) (i : Nat) : Pkt where
  hdr := fun f => if f = fInPort then some i else if f = fMetadata then some 0 else e.hdr f
  tags := e.tags

/-- The packet goes through the switches `w`, the first being `u`, over running stack links.  Each switch sends exactly
one copy, whichever matching rule it picks, and what the last one may do is `F`. -/
inductive Delivered (sw : Nat → Switch) (t : Nat) (n : Net) : List Nat → Nat → Pkt → (List Emit → Prop) → Prop
  | last {u p F} : (∀ es, Proc (sw u) t p es ↔ F es) → Delivered sw t n [u] u p F
  | hop {u p F w} {e : Emit} {q : SPort} : (∀ es, Proc (sw u) t p es ↔ es = [e]) → q ∈ n.ports u → q.running = true →
      q.num = e.port → Delivered sw t n w q.peerDp (arrive e q.peerNum) F → Delivered sw t n (u :: w) u p F

/-- Stack ports: numbers are unique on a switch and real port numbers, every link has two ends. -/
structure Cabled (n : Net) : Prop where
  nums : ∀ u, ((n.ports u).map (·.num)).Nodup
  real : ∀ u, ∀ p ∈ n.ports u, 0 < p.num ∧ p.num < portInPort
  ends : ∀ u, ∀ p ∈ n.ports u, ∃ q ∈ n.ports p.peerDp, q.num = p.peerNum ∧ q.peerDp = u

/-- Whatever flow the switch has in table `t` at the priority of the tunnel rules or above, other than the rule of this
tunnel, does not match packets of the tunnel that come in by a stack port. -/
def Alone (sw : Switch) (t vid flag : Nat) (stack : List SPort) : Prop :=
  ∀ s b, sw.flows s = some b → s.table = t → Dot1x.overridePriority ≤ s.priority →
    s = ⟨t, Dot1x.overridePriority, tunnelItems vid flag⟩ ∨
    ∀ p : Pkt, p.tags.head? = some (vid, flag) → (∃ q ∈ stack, p.hdr fInPort = some q.num) → hitsAll s.items p = false

/-- The rule of the tunnel is in the switch. -/
def HasRule (sw : Switch) (t vid flag : Nat) (l : List OutAct) : Prop :=
  ∃ b, sw.flows ⟨t, Dot1x.overridePriority, tunnelItems vid flag⟩ = some b ∧ b.inst = trimInst (tunnelInst l)

/-- The switch picks a flow with these instructions for the packet, and no other. -/
def Picks (sw : Switch) (t : Nat) (p : Pkt) (inst : List Inst) : Prop :=
  ∃ s b, Hit sw t p s b ∧ b.inst = inst ∧ ∀ s' b', Hit sw t p s' b' → s' = s

/-! ## Processing with a single candidate -/

theorem proc_done {sw : Switch} {t : Nat} {p : Pkt} {inst : List Inst} (h : Picks sw t p inst)
    (hg : instGoto inst = none) (es : List Emit) : Proc sw t p es ↔ es = (runInst sw inst p).1 := by
  obtain ⟨s, b, h1, rfl, h2⟩ := h
  constructor
  · intro hp
    cases hp with
    | miss hm => exact absurd (hm s b h1.present h1.table) (by rw [h1.hits]; simp)
    | done h3 h4 =>
      obtain rfl := h2 _ _ h3
      have := h3.present
      rw [h1.present] at this
      injection this with this
      rw [this]
    | next h3 h4 _ =>
      obtain rfl := h2 _ _ h3
      have := h3.present
      rw [h1.present] at this
      injection this with this
      rw [← this, hg] at h4
      cases h4
  · rintro rfl
    exact .done h1 hg

theorem proc_next {sw : Switch} {t n : Nat} {p : Pkt} {inst : List Inst} (h : Picks sw t p inst)
    (hg : instGoto inst = some n) (es : List Emit) :
    Proc sw t p es ↔ ∃ es', Proc sw n (runInst sw inst p).2 es' ∧ es = (runInst sw inst p).1 ++ es' := by
  obtain ⟨s, b, h1, rfl, h2⟩ := h
  constructor
  · intro hp
    cases hp with
    | miss hm => exact absurd (hm s b h1.present h1.table) (by rw [h1.hits]; simp)
    | done h3 h4 =>
      obtain rfl := h2 _ _ h3
      have := h3.present
      rw [h1.present] at this
      injection this with this
      rw [← this, hg] at h4
      cases h4
    | next h3 h4 h5 =>
      obtain rfl := h2 _ _ h3
      have := h3.present
      rw [h1.present] at this
      injection this with this
      subst this
      rw [hg] at h4
      injection h4 with h4
      subst h4
      exact ⟨_, h5, rfl⟩
  · rintro ⟨es', h3, rfl⟩
    exact .next h1 hg h3

theorem hits_tunnel {vid flag : Nat} {p : Pkt} (h : p.tags.head? = some (vid, flag)) :
    hitsAll (tunnelItems vid flag) p = true := by
  obtain ⟨hdr, tags⟩ := p
  cases tags with
  | nil => simp at h
  | cons a l =>
    simp only [List.head?_cons, Option.some.injEq] at h
    subst h
    simp [hitsAll, tunnelItems, MatchItem.hits, Pkt.field, maskEq, fVlanVid, fVlanPcp]

theorem picks_rule {sw : Switch} {t vid flag : Nat} {l : List OutAct} {stack : List SPort} (hr : HasRule sw t vid flag l)
    (ha : Alone sw t vid flag stack) {p : Pkt} (ht : p.tags.head? = some (vid, flag))
    (hi : ∃ q ∈ stack, p.hdr fInPort = some q.num) : Picks sw t p (trimInst (tunnelInst l)) := by
  obtain ⟨b, h1, h2⟩ := hr
  have hbest : ∀ s' b', sw.flows s' = some b' → s'.table = t → hitsAll s'.items p = true →
      s'.priority ≤ Dot1x.overridePriority := by
    intro s' b' h3 h4 h5
    by_contra hc
    rcases ha s' b' h3 h4 (by omega) with rfl | h6
    · simp at hc
    · rw [h6 p ht hi] at h5
      cases h5
  have hh : Hit sw t p ⟨t, Dot1x.overridePriority, tunnelItems vid flag⟩ b := ⟨h1, rfl, hits_tunnel ht, hbest⟩
  refine ⟨_, b, hh, h2, ?_⟩
  intro s' b' h3
  rcases ha s' b' h3.present h3.table (h3.best _ _ h1 rfl (hits_tunnel ht)) with h4 | h4
  · exact h4
  · have h5 := h3.hits
    rw [h4 p ht hi] at h5
    cases h5

/-! ## Building the instructions -/

theorem foldl_append (l : List OutAct) (o : Out) :
    (l.foldl (fun (o : Out) a => o.append (actFlat a)) o).acts = o.acts ++ l.flatMap (fun a => (actFlat a).acts) ∧
    (l.foldl (fun (o : Out) a => o.append (actFlat a)) o).inst = o.inst ++ l.flatMap (fun a => (actFlat a).inst) ∧
    (l.foldl (fun (o : Out) a => o.append (actFlat a)) o).msgs = o.msgs ++ l.flatMap (fun a => (actFlat a).msgs) := by
  induction l generalizing o with
  | nil => simp
  | cons a l ih =>
    simp only [List.foldl_cons, List.flatMap_cons]
    obtain ⟨h1, h2, h3⟩ := ih (o.append (actFlat a))
    rw [h1, h2, h3]
    simp [Out.append]

/-- The actions of a list of output elements. -/
def actsOf (l : List OutAct) : List Action := l.flatMap (fun a => (actFlat a).acts)

/-- No element sends the packet to another table. -/
def NoGoto (l : List OutAct) : Prop := ∀ a ∈ l, ∀ t, a ≠ .goto t

theorem flat_acts (l : List OutAct) : (outFlat (.ordered l)).acts = actsOf l := by
  have := (foldl_append l {}).1
  simpa [outFlat, Out.setPort, actsOf] using this

theorem flat_inst (l : List OutAct) : (outFlat (.ordered l)).inst = l.flatMap (fun a => (actFlat a).inst) := by
  have := (foldl_append l {}).2.1
  simpa [outFlat, Out.setPort] using this

theorem flat_msgs (l : List OutAct) : (outFlat (.ordered l)).msgs = l.flatMap (fun a => (actFlat a).msgs) := by
  have := (foldl_append l {}).2.2
  simpa [outFlat, Out.setPort] using this

theorem noGoto_inst {l : List OutAct} (h : NoGoto l) : l.flatMap (fun a => (actFlat a).inst) = [] := by
  rw [List.flatMap_eq_nil_iff]
  intro a ha
  cases a with
  | goto t => exact absurd rfl (h _ ha t)
  | _ => rfl

theorem actsOf_append (l k : List OutAct) : actsOf (l ++ k) = actsOf l ++ actsOf k := by
  simp [actsOf]

theorem actsOf_noCt (l : List OutAct) : (actsOf l).any Action.isCt = false := by
  rw [List.any_eq_false]
  intro x hx
  simp only [actsOf, List.mem_flatMap] at hx
  obtain ⟨a, _, hx⟩ := hx
  cases a <;> simp only [actFlat, List.mem_map, List.mem_flatMap, List.mem_singleton, List.not_mem_nil, pushVlan,
    List.mem_cons, or_false, List.mem_replicate] at hx
  case popVlans => rw [hx.2]; simp [Action.isCt]
  case vlanVid => rcases hx with rfl | rfl <;> simp [Action.isCt]
  case swapVid => rw [hx]; simp [Action.isCt]
  case vlanVids => obtain ⟨_, _, rfl | rfl⟩ := hx <;> simp [Action.isCt]
  case setFields => obtain ⟨_, _, rfl⟩ := hx; simp [Action.isCt]
  case port => rw [hx]; simp [Action.isCt]
  case ports => obtain ⟨_, _, rfl⟩ := hx; simp [Action.isCt]
  case failover => rw [hx]; simp [Action.isCt]

theorem trimStep_append (as : List Action) (st : List Action × List Action) :
    (as.foldl trimStep st).1 ++ (as.foldl trimStep st).2 = st.1 ++ st.2 ++ as := by
  induction as generalizing st with
  | nil => simp
  | cons a as ih =>
    rw [List.foldl_cons, ih]
    unfold trimStep
    split <;> simp

/-- Nothing before the last output is left out. -/
theorem trimActions_last (as : List Action) (p : Nat) : trimActions (as ++ [.output p]) = as ++ [.output p] := by
  unfold trimActions
  rw [List.foldl_append, List.foldl_cons, List.foldl_nil]
  have := trimStep_append as ([], [])
  generalize as.foldl trimStep ([], []) = st at this
  show st.1 ++ st.2 ++ [Action.output p] = _
  rw [this]
  simp

/-- The instructions of a rule that ends with an output. -/
theorem inst_port {l : List OutAct} (h : NoGoto l) (p : Nat) :
    trimInst (tunnelInst (l ++ [.port p])) = [.apply (actsOf l ++ [.output p])] := by
  have hng : NoGoto (l ++ [.port p]) := by
    intro a ha t
    rcases List.mem_append.1 ha with ha | ha
    · exact h a ha t
    · rw [List.mem_singleton.1 ha]; simp
  have hacts : (outFlat (.ordered (l ++ [.port p]))).acts = actsOf l ++ [.output p] := by
    rw [flat_acts, actsOf_append]; rfl
  have hct : (actsOf l ++ [Action.output p]).any Action.isCt = false := by
    have := actsOf_noCt (l ++ [.port p])
    rw [actsOf_append] at this
    exact this
  unfold tunnelInst
  rw [flat_inst, noGoto_inst hng, hacts]
  simp only [List.nil_append, trimInst, List.any_cons, List.any_nil, Inst.isGoto, Bool.or_false, List.filterMap_cons,
    List.filterMap_nil, trimOne, hct, Bool.not_false, Bool.and_self, if_true, trimActions_last]
  simp

/-- The instructions of a rule that ends with a table. -/
theorem inst_goto {l : List OutAct} (h : NoGoto l) (hne : actsOf l ≠ []) (t : Nat) :
    trimInst (tunnelInst (l ++ [.goto t])) = [.goto t, .apply (actsOf l)] := by
  have hinst : (l ++ [OutAct.goto t]).flatMap (fun a => (actFlat a).inst) = [.goto t] := by
    rw [List.flatMap_append, noGoto_inst h]; rfl
  have hacts : (outFlat (.ordered (l ++ [.goto t]))).acts = actsOf l := by
    rw [flat_acts, actsOf_append]; simp [actsOf, actFlat]
  unfold tunnelInst
  rw [flat_inst, hinst, hacts]
  simp [trimInst, Inst.isGoto, trimOne, hne]

theorem inst_goto_nil (t : Nat) : trimInst (tunnelInst [.goto t]) = [.goto t] := by
  simp [tunnelInst, flat_inst, flat_acts, actFlat, trimInst, Inst.isGoto, trimOne, actsOf]

/-! ## One switch on the way -/

theorem runInst_apply (sw : Switch) (as : List Action) (p : Pkt) : runInst sw [.apply as] p = runActs sw.groups as p := by
  simp [runInst, instActs, instMeta]

theorem runInst_goto_apply (sw : Switch) (t : Nat) (as : List Action) (p : Pkt) :
    runInst sw [.goto t, .apply as] p = runActs sw.groups as p := by
  simp [runInst, instActs, instMeta]

theorem emitPort_other {p : Pkt} {n : Nat} (h1 : n < portInPort) (h2 : p.hdr fInPort ≠ some n) :
    emitPort p n = [⟨n, p.tags, p.hdr⟩] := by
  unfold emitPort
  rw [if_neg (by omega), if_neg h2]

/-- A switch in the middle passes the packet on as it is. -/
theorem transit_step {sw : Switch} {t vid flag n : Nat} {stack : List SPort} (hr : HasRule sw t vid flag [.port n])
    (ha : Alone sw t vid flag stack) {p : Pkt} (ht : p.tags.head? = some (vid, flag))
    (hi : ∃ q ∈ stack, p.hdr fInPort = some q.num) (hn : n < portInPort) (hne : p.hdr fInPort ≠ some n) (es : List Emit) :
    Proc sw t p es ↔ es = [⟨n, p.tags, p.hdr⟩] := by
  have hp := picks_rule hr ha ht hi
  have h0 := inst_port (l := []) (by intro a ha; cases ha) n
  rw [List.nil_append] at h0
  rw [h0] at hp
  rw [proc_done hp rfl, runInst_apply]
  simp [actsOf, runActs, emitPort_other hn hne]

/-- The last switch takes the tag off, applies the exit instructions and outputs. -/
theorem exit_step {sw : Switch} {t vid flag n : Nat} {stack : List SPort} {maintain : Bool} {exits : List OutAct}
    (hx : NoGoto exits)
    (hr : HasRule sw t vid flag ((if maintain then [] else [.popVlans 1]) ++ exits ++ [.port n]))
    (ha : Alone sw t vid flag stack) {p : Pkt} (ht : p.tags.head? = some (vid, flag))
    (hi : ∃ q ∈ stack, p.hdr fInPort = some q.num) (es : List Emit) :
    Proc sw t p es ↔
      es = (runActs sw.groups (actsOf exits ++ [.output n]) ⟨p.hdr, if maintain then p.tags else p.tags.tail⟩).1 := by
  have hp := picks_rule hr ha ht hi
  have hng : NoGoto ((if maintain then [] else [.popVlans 1]) ++ exits) := by
    intro a ha' t'
    rcases List.mem_append.1 ha' with h | h
    · cases maintain
      · rw [if_neg (by simp)] at h
        rw [List.mem_singleton.1 h]; simp
      · rw [if_pos rfl] at h
        cases h
    · exact hx a h t'
  rw [inst_port hng] at hp
  rw [proc_done hp rfl, runInst_apply, actsOf_append]
  cases maintain
  · simp [actsOf, actFlat, runActs, Action.apply]
  · simp [actsOf]

/-- The same for a tunnel to a switch: the packet goes on to the `eth_dst` table. -/
theorem exit_step_l2 {sw : Switch} {t vid flag l2 : Nat} {stack : List SPort} {maintain : Bool}
    (hr : HasRule sw t vid flag ((if maintain then [] else [.popVlans 1]) ++ [] ++ [.goto l2]))
    (ha : Alone sw t vid flag stack) {p : Pkt} (ht : p.tags.head? = some (vid, flag))
    (hi : ∃ q ∈ stack, p.hdr fInPort = some q.num) (es : List Emit) :
    Proc sw t p es ↔ Proc sw l2 ⟨p.hdr, if maintain then p.tags else p.tags.tail⟩ es := by
  have hp := picks_rule hr ha ht hi
  rw [List.append_nil] at hp
  cases maintain
  · rw [if_neg (by simp), inst_goto (by intro a h t'; rw [List.mem_singleton.1 h]; simp) (by simp [actsOf, actFlat])] at hp
    rw [proc_next hp rfl, runInst_goto_apply]
    simp [actsOf, actFlat, runActs, Action.apply]
  · rw [if_pos rfl, List.nil_append, inst_goto_nil] at hp
    rw [proc_next hp rfl]
    simp [runInst, instActs, instMeta, runActs]

/-! ## Along the path -/

theorem num_ne {n : Net} (cab : Cabled n) {u : Nat} {p q : SPort} (hp : p ∈ n.ports u) (hq : q ∈ n.ports u)
    (h : p.peerDp ≠ q.peerDp) : p.num ≠ q.num := by
  intro he
  exact h (congrArg SPort.peerDp (List.inj_on_of_nodup_map (cab.nums u) hp hq he))

theorem path_head {g : Graph} (hw : Wf g) {s d : Nat} (hs : s ∈ g.nodes) (hc : Connected (Adj g) s d) :
    s ∈ shortestPath g s d := by
  obtain ⟨t, ht⟩ := (shortestPath_spec hw hs hc).1.head
  rw [ht]
  simp

/-- A packet inside the tunnel reaches the end of it, whatever the number of switches. `R u` is the rule of switch `u`,
`F` what the last switch does with the packet. -/
theorem carried {sw : Nat → Switch} {t vid flag : Nat} {n : Net} {g : Graph} (sh : Shared n g) (cab : Cabled n) {d : Nat}
    {R : Nat → List OutAct} {F : (Nat → Option Nat) → List Emit → Prop} {ts : List (Nat × Nat)} {w0 : List Nat}
    (rule : ∀ u ∈ w0, HasRule (sw u) t vid flag (R u) ∧ Alone (sw u) t vid flag (n.ports u))
    (mid : ∀ u ∈ w0, u ≠ d → ∀ q, shortestPathPort n u d = some q → R u = [.port q.num])
    (fin : ∀ p : Pkt, p.tags = (vid, flag) :: ts → (∃ q ∈ n.ports d, p.hdr fInPort = some q.num) →
      ∀ es, Proc (sw d) t p es ↔ F p.hdr es) :
    ∀ (k u : Nat) (p : Pkt) (r : SPort), (shortestPath g u d).length = k → u ∈ g.nodes → Connected (Adj g) u d →
      (∀ x ∈ shortestPath g u d, x ∈ w0) → p.tags = (vid, flag) :: ts → r ∈ n.ports u → p.hdr fInPort = some r.num →
      (shortestPath g r.peerDp d).length = k + 1 →
      ∃ hdr, (∀ f, f ≠ fInPort → f ≠ fMetadata → hdr f = p.hdr f) ∧
        Delivered sw t n (shortestPath g u d) u p (F hdr) := by
  intro k
  induction k with
  | zero =>
    intro u p r hk hu hc
    obtain ⟨x, hx⟩ := (shortestPath_spec sh.wf hu hc).1.head
    rw [hx] at hk
    simp at hk
  | succ k ih =>
    intro u p r hk hu hc hin ht hr hi hprev
    by_cases hd : u = d
    · subst hd
      rw [shortestPath_self sh.wf hu]
      exact ⟨p.hdr, fun _ _ _ => rfl, .last (fin p ht ⟨r, hr, hi⟩)⟩
    · obtain ⟨q, h1, h2, h3, h4, h5, h6⟩ := shortestPathPort_spec sh hu hc hd
      have huw : u ∈ w0 := hin u (path_head sh.wf hu hc)
      obtain ⟨hrule, halone⟩ := rule u huw
      rw [mid u huw hd q h1] at hrule
      have hlen : (shortestPath g q.peerDp d).length = k := by
        rw [h6, List.length_cons] at hk
        omega
      have hne : r.num ≠ q.num := by
        refine num_ne cab hr h2 ?_
        intro he
        rw [he] at hprev
        omega
      have hstep := transit_step hrule halone (p := p) (by rw [ht]; rfl) ⟨r, hr, hi⟩ (cab.real u q h2).2
        (by rw [hi]; simpa using hne)
      obtain ⟨q', hq', hn', hd'⟩ := cab.ends u q h2
      obtain ⟨hdr, h7, h8⟩ := ih q.peerDp (arrive ⟨q.num, p.tags, p.hdr⟩ q.peerNum) q' hlen (Adj.mem sh.wf h4).2 h5
        (fun x hx => hin x (by rw [h6]; exact List.mem_cons_of_mem _ hx)) ht hq' (by rw [hn']; simp [arrive])
        (by rw [hd', hk])
      rw [h6]
      refine ⟨hdr, ?_, .hop hstep h2 h3 rfl h8⟩
      intro f hf1 hf2
      rw [h7 f hf1 hf2]
      simp [arrive, hf1, hf2]

/-! ## Entering -/

/-- The actions at the entrance: tag, mark, output, take the tag off again. -/
def entryActs (vid flag out : Nat) : List Action :=
  [.pushVlan 0x8100, .setField fVlanVid (vidPresent vid), .setField fVlanPcp flag, .output out, .popVlan]

theorem actsOf_entry (vid flag out : Nat) : actsOf (encap vid flag ++ [.port out] ++ [.popVlans 1]) = entryActs vid flag out :=
  rfl

/-- The output of a rule sends the packet to the tunnel and nowhere else. -/
def TunnelOnly (a : Actions) (vid : Nat) : Prop :=
  (a.output = some (.dict { tunnel := some vid }) ∨ a.output = some (.ordered [.tunnel vid])) ∧
  a.mirror = none ∧ a.ct = none ∧ a.meter = none

/-- The instructions of an ACL rule that uses a tunnel. -/
theorem ruleInst_tunnel {c : Ctx} {r : Rule} {a : Actions} {vid flag out : Nat} (hr : r.actions = some a)
    (ht : TunnelOnly a vid) {rules : Dict Nat Output} (hc : c.tunnels = some rules)
    (hg : rules.get? vid = some (.ordered (encap vid flag ++ [.port out] ++ [.popVlans 1]))) :
    ruleInst c r = some ((if a.allows then allowInst c a else []) ++ [.apply (entryActs vid flag out)], []) := by
  obtain ⟨ho, hm, hct, hmet⟩ := ht
  have hne : rules.isEmpty = false := by
    cases rules with
    | nil => simp at hg
    | cons _ _ => rfl
  have hnot : ∀ keep, tunnelOut keep c.tunnels (some vid) = some ⟨false, entryActs vid flag out, [], []⟩ := by
    intro keep
    have hi : (encap vid flag ++ [OutAct.port out] ++ [OutAct.popVlans 1]).flatMap (fun a => (actFlat a).inst) = [] := rfl
    have hms : (encap vid flag ++ [OutAct.port out] ++ [OutAct.popVlans 1]).flatMap (fun a => (actFlat a).msgs) = [] := rfl
    rw [hc]
    unfold tunnelOut
    simp only [hne, hg, Option.map_some, Out.setPort, Out.setMsgs, flat_acts, flat_msgs, actsOf_entry, flat_inst, hi, hms]
    cases keep <;> rfl
  have hout : ∃ b, outputOf c a = some ⟨b, entryActs vid flag out, [], []⟩ := by
    unfold outputOf
    rcases ho with ho | ho
    · rw [ho]
      refine ⟨false, ?_⟩
      simp only [buildOut, hnot]
      rfl
    · rw [ho]
      refine ⟨true, ?_⟩
      simp only [buildOut, List.foldlM_cons, List.foldlM_nil, actOut, hnot]
      rfl
  obtain ⟨b, hout⟩ := hout
  unfold ruleInst
  rw [hr]
  simp only [meterInst, hmet, Option.bind_some, hout, Option.map_some, applyActs, hm, hct, gotoInst, skips]
  by_cases hal : a.allows = true <;> cases b <;> simp [entryActs, hal]

theorem apply_entry {vid : Nat} (flag : Nat) (hv : vid < 4096) (p : Pkt) :
    Action.apply (.setField fVlanPcp flag) (Action.apply (.setField fVlanVid (vidPresent vid))
      (Action.apply (.pushVlan 0x8100) p)) = ⟨p.hdr, (vid, flag) :: p.tags⟩ := by
  simp [Action.apply, fVlanPcp, fVlanVid, (Encoding.vid_present_roundtrip hv).1]

/-- The copy sent, and the packet left over: with the tags it came with. -/
theorem run_entry {vid out : Nat} (flag : Nat) (hv : vid < 4096) (ho : out < portInPort) {p : Pkt}
    (hi : p.hdr fInPort ≠ some out) (g : Nat → Option (List (List Action))) :
    runActs g (entryActs vid flag out) p = ([⟨out, (vid, flag) :: p.tags, p.hdr⟩], p) := by
  have h1 : runActs g (entryActs vid flag out) p =
      runActs g [.output out, .popVlan] (Action.apply (.setField fVlanPcp flag)
        (Action.apply (.setField fVlanVid (vidPresent vid)) (Action.apply (.pushVlan 0x8100) p))) := rfl
  rw [h1, apply_entry flag hv]
  simp only [runActs, Action.apply]
  rw [emitPort_other ho (by exact hi)]
  simp

theorem trim_entry (vid flag out : Nat) :
    trimInst [.apply (entryActs vid flag out)] = [.apply (entryActs vid flag out).dropLast] := by
  simp [trimInst, Inst.isGoto, trimOne, entryActs, Action.isCt, trimActions, trimStep, Action.isOutput]

theorem run_entry_trimmed {vid out : Nat} (flag : Nat) (hv : vid < 4096) (ho : out < portInPort) {p : Pkt}
    (hi : p.hdr fInPort ≠ some out) (g : Nat → Option (List (List Action))) :
    (runActs g (entryActs vid flag out).dropLast p).1 = [⟨out, (vid, flag) :: p.tags, p.hdr⟩] := by
  have h1 : runActs g (entryActs vid flag out).dropLast p =
      runActs g [.output out] (Action.apply (.setField fVlanPcp flag)
        (Action.apply (.setField fVlanVid (vidPresent vid)) (Action.apply (.pushVlan 0x8100) p))) := rfl
  rw [h1, apply_entry flag hv]
  simp only [runActs]
  rw [emitPort_other ho (by exact hi)]
  simp

/-- A rule that does not allow the packet sends it into the tunnel, and nowhere else. -/
theorem enter {sw : Switch} {t : Nat} {p : Pkt} {c : Ctx} {r : Rule} {a : Actions} {vid out : Nat} (flag : Nat)
    (hr : r.actions = some a) (ht : TunnelOnly a vid) (hno : a.allows = false) {rules : Dict Nat Output}
    (hc : c.tunnels = some rules)
    (hg : rules.get? vid = some (.ordered (encap vid flag ++ [.port out] ++ [.popVlans 1]))) {inst : List Inst}
    {ms : List OfMsg} (hb : ruleInst c r = some (inst, ms)) (hp : Picks sw t p (trimInst inst)) (hv : vid < 4096)
    (ho : out < portInPort) (hi : p.hdr fInPort ≠ some out) (es : List Emit) :
    Proc sw t p es ↔ es = [⟨out, (vid, flag) :: p.tags, p.hdr⟩] := by
  rw [ruleInst_tunnel hr ht hc hg, hno, if_neg (by simp), List.nil_append] at hb
  injection hb with hb
  injection hb with hb _
  rw [← hb, trim_entry] at hp
  rw [proc_done hp rfl, runInst_apply, run_entry_trimmed flag hv ho hi]

/-- A rule that also allows the packet sends a copy into the tunnel and goes on with the packet as it came. -/
theorem enter_allowed {sw : Switch} {t : Nat} {p : Pkt} {c : Ctx} {r : Rule} {a : Actions} {vid out : Nat} (flag : Nat)
    (hr : r.actions = some a) (ht : TunnelOnly a vid) (hal : a.allows = true) {rules : Dict Nat Output}
    (hc : c.tunnels = some rules)
    (hg : rules.get? vid = some (.ordered (encap vid flag ++ [.port out] ++ [.popVlans 1]))) {inst : List Inst}
    {ms : List OfMsg} (hb : ruleInst c r = some (inst, ms)) (hp : Picks sw t p (trimInst inst)) (hv : vid < 4096)
    (ho : out < portInPort) (hi : p.hdr fInPort ≠ some out) (es : List Emit) :
    Proc sw t p es ↔ ∃ es', Proc sw (if a.force = some 1 then c.forceTable else c.allowTable) p es' ∧
      es = ⟨out, (vid, flag) :: p.tags, p.hdr⟩ :: es' := by
  rw [ruleInst_tunnel hr ht hc hg, hal, if_pos rfl] at hb
  injection hb with hb
  injection hb with hb _
  have h1 : trimInst inst = [.goto (if a.force = some 1 then c.forceTable else c.allowTable),
      .apply (entryActs vid flag out)] := by
    rw [← hb]
    unfold allowInst
    by_cases hf : a.force = some 1
    · simp [hf, trimInst, Inst.isGoto, trimOne, entryActs]
    · simp [hf, trimInst, Inst.isGoto, trimOne, entryActs]
  rw [h1] at hp
  rw [proc_next hp rfl, runInst_goto_apply, run_entry flag hv ho hi]
  rfl

/-! ## From end to end -/

/-- What the rules of a tunnel are at the entrance and on the switches after it. -/
theorem fwd_entry {n : Net} {g : Graph} (sh : Shared n g) (cab : Cabled n) {src l2 vid : Nat} {d : Dest} {s : Source}
    (hs : s.dp = src) (hu : src ∈ g.nodes) (hc : Connected (Adj g) src d.dp) (hne : src ≠ d.dp) {q : SPort}
    (hq : shortestPathPort n src d.dp = some q) :
    fwd n src l2 vid d s = some (encap vid d.flag ++ [.port q.num] ++ [.popVlans 1]) := by
  obtain ⟨q', h1, h2, _⟩ := shortestPathPort_spec sh hu hc hne
  rw [hq] at h1
  injection h1 with h1
  subst h1
  have hout : outport n src s.dp d.dp d.port = some q.num := by
    unfold outport
    rw [sh.graph, hs, if_pos (path_head sh.wf hu hc), if_neg hne, hq]
    rfl
  unfold fwd
  rw [hout]
  have := (cab.real src q h2).1
  obtain ⟨m, hm⟩ : ∃ m, q.num = m + 1 := ⟨q.num - 1, by omega⟩
  simp only [hm, sourceRules, hs]
  rw [if_pos ⟨trivial, hne⟩]
  rfl

theorem fwd_mid {n : Net} {g : Graph} (sh : Shared n g) (cab : Cabled n) {u l2 vid : Nat} {d : Dest} {s : Source}
    (hin : u ∈ shortestPath g s.dp d.dp) (hu : u ∈ g.nodes) (hc : Connected (Adj g) u d.dp) (hus : u ≠ s.dp)
    (hne : u ≠ d.dp) {q : SPort} (hq : shortestPathPort n u d.dp = some q) :
    fwd n u l2 vid d s = some [.port q.num] := by
  obtain ⟨q', h1, h2, _⟩ := shortestPathPort_spec sh hu hc hne
  rw [hq] at h1
  injection h1 with h1
  subst h1
  have hout : outport n u s.dp d.dp d.port = some q.num := by
    unfold outport
    rw [sh.graph, if_pos hin, if_neg hne, hq]
    rfl
  unfold fwd
  rw [hout]
  have := (cab.real u q h2).1
  obtain ⟨m, hm⟩ : ∃ m, q.num = m + 1 := ⟨q.num - 1, by omega⟩
  simp only [hm, sourceRules]
  rw [if_neg (by tauto), if_neg (by tauto), if_neg (by tauto)]
  rfl

theorem fwd_exit {n : Net} {g : Graph} (sh : Shared n g) {l2 vid : Nat} {d : Dest} {s : Source}
    (hin : d.dp ∈ shortestPath g s.dp d.dp) (hne : s.dp ≠ d.dp) (hp : ∀ p, d.port = some p → 0 < p) :
    fwd n d.dp l2 vid d s = some ((if d.maintain then [] else [.popVlans 1]) ++ d.exits ++ [outEnd l2 d.port]) := by
  have hout : outport n d.dp s.dp d.dp d.port = d.port := by
    unfold outport
    rw [sh.graph, if_pos hin, if_pos rfl]
  unfold fwd
  rw [hout]
  cases hd : d.port with
  | none =>
    simp only [sourceRules, and_self, if_true]
    rw [if_neg (by tauto), if_pos ⟨trivial, fun h => hne h.symm⟩]
  | some p =>
    have := hp p hd
    obtain ⟨m, hm⟩ : ∃ m, p = m + 1 := ⟨p - 1, by omega⟩
    subst hm
    simp only [sourceRules]
    rw [if_neg (by tauto), if_pos ⟨trivial, fun h => hne h.symm⟩]

/-- Every switch on the way after the first has the rule that the controller computes for it, and nothing above it. -/
def Ready (sw : Nat → Switch) (t l2 vid : Nat) (n : Net) (d : Dest) (s : Source) (w : List Nat) : Prop :=
  ∀ u ∈ w, u ≠ s.dp → Alone (sw u) t vid d.flag (n.ports u) ∧
    ∀ l, fwd n u l2 vid d s = some l → HasRule (sw u) t vid d.flag l

theorem mem_path_connected {g : Graph} (hw : Wf g) : ∀ (k : Nat) {s d u : Nat}, (shortestPath g s d).length = k →
    s ∈ g.nodes → Connected (Adj g) s d → u ∈ shortestPath g s d → u ∈ g.nodes ∧ Connected (Adj g) u d := by
  intro k
  induction k with
  | zero =>
    intro s d u hk _ _ hu
    rw [List.eq_nil_of_length_eq_zero hk] at hu
    cases hu
  | succ k ih =>
    intro s d u hk hs hc hu
    by_cases hd : s = d
    · subst hd
      rw [shortestPath_self hw hs] at hu
      rw [List.mem_singleton.1 hu]
      exact ⟨hs, hc⟩
    · obtain ⟨v, _, h2, h3, h4⟩ := shortestPath_cons hw hs hc hd
      rw [h4] at hu hk
      rcases List.mem_cons.1 hu with rfl | hu
      · exact ⟨hs, hc⟩
      · exact ih (by simpa using hk) h2 h3 hu

theorem not_in_tail {g : Graph} (hw : Wf g) : ∀ (k : Nat) {v d s : Nat}, (shortestPath g v d).length = k →
    v ∈ g.nodes → Connected (Adj g) v d → k < (shortestPath g s d).length → s ∉ shortestPath g v d := by
  intro k
  induction k with
  | zero =>
    intro v d s hk _ _ _ hu
    rw [List.eq_nil_of_length_eq_zero hk] at hu
    cases hu
  | succ k ih =>
    intro v d s hk hv hc hlt hu
    by_cases hd : v = d
    · subst hd
      rw [shortestPath_self hw hv] at hu hk
      rw [List.mem_singleton.1 hu, shortestPath_self hw hv] at hlt
      simp only [List.length_singleton] at hk hlt
      omega
    · obtain ⟨x, _, h2, h3, h4⟩ := shortestPath_cons hw hv hc hd
      rw [h4] at hu
      rcases List.mem_cons.1 hu with rfl | hu
      · omega
      · rw [h4] at hk
        exact ih (by simpa using hk) h2 h3 (by omega) hu

/-- The way after the first switch. -/
theorem carried_fwd {sw : Nat → Switch} {t l2 vid : Nat} {n : Net} {g : Graph} (sh : Shared n g) (cab : Cabled n)
    {d : Dest} {s : Source} (hs : s.dp ∈ g.nodes) (hc : Connected (Adj g) s.dp d.dp) (hne : s.dp ≠ d.dp)
    (rdy : Ready sw t l2 vid n d s (shortestPath g s.dp d.dp)) (hdp : ∀ p, d.port = some p → 0 < p)
    {F : (Nat → Option Nat) → List Emit → Prop} {ts : List (Nat × Nat)}
    (fin : HasRule (sw d.dp) t vid d.flag ((if d.maintain then [] else [.popVlans 1]) ++ d.exits ++ [outEnd l2 d.port]) →
      Alone (sw d.dp) t vid d.flag (n.ports d.dp) →
      ∀ p : Pkt, p.tags = (vid, d.flag) :: ts → (∃ q ∈ n.ports d.dp, p.hdr fInPort = some q.num) →
      ∀ es, Proc (sw d.dp) t p es ↔ F p.hdr es) {q : SPort} (hq : shortestPathPort n s.dp d.dp = some q)
    (hdr0 : Nat → Option Nat) :
    ∃ hdr, (∀ f, f ≠ fInPort → f ≠ fMetadata → hdr f = hdr0 f) ∧
      Delivered sw t n (shortestPath g q.peerDp d.dp) q.peerDp (arrive ⟨q.num, (vid, d.flag) :: ts, hdr0⟩ q.peerNum) (F hdr) := by
  obtain ⟨q', h1, h2, h3, h4, h5, h6⟩ := shortestPathPort_spec sh hs hc hne
  rw [hq] at h1
  injection h1 with h1
  subst h1
  have hv : q.peerDp ∈ g.nodes := (Adj.mem sh.wf h4).2
  have hlen : (shortestPath g s.dp d.dp).length = (shortestPath g q.peerDp d.dp).length + 1 := by rw [h6]; simp
  have htail : ∀ u ∈ shortestPath g q.peerDp d.dp, u ∈ shortestPath g s.dp d.dp ∧ u ≠ s.dp ∧ u ∈ g.nodes ∧
      Connected (Adj g) u d.dp := by
    intro u hu
    refine ⟨by rw [h6]; exact List.mem_cons_of_mem _ hu, ?_, mem_path_connected sh.wf _ rfl hv h5 hu⟩
    rintro rfl
    exact not_in_tail sh.wf _ rfl hv h5 (by omega) hu
  have hdin : d.dp ∈ shortestPath g q.peerDp d.dp := (shortestPath_spec sh.wf hv h5).1.dst_mem
  obtain ⟨q', hq', hn', hd'⟩ := cab.ends _ q h2
  have hfx := fwd_exit (l2 := l2) (vid := vid) sh (htail _ hdin).1 hne hdp
  obtain ⟨hdr, h7, h8⟩ := carried (sw := sw) (t := t) (vid := vid) (flag := d.flag) (ts := ts) (F := F) sh cab
    (d := d.dp) (w0 := shortestPath g q.peerDp d.dp) (R := fun u => (fwd n u l2 vid d s).getD [])
    (by
      intro u hu
      obtain ⟨h9, h10, h11, h12⟩ := htail u hu
      obtain ⟨h13, h14⟩ := rdy u h9 h10
      refine ⟨?_, h13⟩
      by_cases hud : u = d.dp
      · subst hud
        simp only [hfx, Option.getD_some]
        exact h14 _ hfx
      · obtain ⟨r, hr, _⟩ := shortestPathPort_spec sh h11 h12 hud
        have hf := fwd_mid (l2 := l2) (vid := vid) sh cab h9 h11 h12 h10 hud hr
        simp only [hf, Option.getD_some]
        exact h14 _ hf)
    (by
      intro u hu hud r hr
      obtain ⟨h9, h10, h11, h12⟩ := htail u hu
      simp only [fwd_mid (l2 := l2) (vid := vid) sh cab h9 h11 h12 h10 hud hr, Option.getD_some])
    (by
      obtain ⟨h9, h10, h11, h12⟩ := htail _ hdin
      obtain ⟨h13, h14⟩ := rdy _ h9 h10
      exact fin (h14 _ hfx) h13)
    _ q.peerDp (arrive ⟨q.num, (vid, d.flag) :: ts, hdr0⟩ q.peerNum) q' rfl hv h5 (fun x hx => hx) rfl hq'
    (by rw [hn']; simp [arrive]) (by rw [hd', hlen])
  refine ⟨hdr, ?_, h8⟩
  intro f hf1 hf2
  rw [h7 f hf1 hf2]
  simp [arrive, hf1, hf2]

/-- The setting: a stack that has settled, a tunnel from an ACL of switch `s.dp` to another switch, with the rules on the
way; and a packet, not coming from a stack port, that a rule of the ACL sends into the tunnel. -/
structure Entered (sw : Nat → Switch) (t l2 vid : Nat) (n : Net) (g : Graph) (d : Dest) (s : Source) (p : Pkt)
    (c : Ctx) (a : Actions) : Prop where
  shared : Shared n g
  cabled : Cabled n
  src : s.dp ∈ g.nodes
  conn : Connected (Adj g) s.dp d.dp
  far : s.dp ≠ d.dp
  ready : Ready sw t l2 vid n d s (shortestPath g s.dp d.dp)
  legal : vid < 4096
  port : ∀ o, d.port = some o → 0 < o ∧ o < portInPort ∧ ∀ q ∈ n.ports d.dp, q.num ≠ o
  tunnel : TunnelOnly a vid
  rules : ∃ rules l, c.tunnels = some rules ∧ fwd n s.dp l2 vid d s = some l ∧ rules.get? vid = some (.ordered l)
  picks : ∃ r inst ms, r.actions = some a ∧ ruleInst c r = some (inst, ms) ∧ Picks (sw s.dp) t p (trimInst inst)
  edge : ∀ q ∈ n.ports s.dp, p.hdr fInPort ≠ some q.num

/-- Tags at the end of the tunnel. -/
def Dest.outTags (d : Dest) (vid : Nat) (tags : List (Nat × Nat)) : List (Nat × Nat) :=
  if d.maintain then (vid, d.flag) :: tags else tags

section
variable {sw : Nat → Switch} {t l2 vid : Nat} {n : Net} {g : Graph} {d : Dest} {s : Source} {p : Pkt} {c : Ctx} {a : Actions}

/-- First switch and the rest of the way, whatever the end is. -/
theorem Entered.way (h : Entered sw t l2 vid n g d s p c a) {F : (Nat → Option Nat) → List Emit → Prop}
    (fin : HasRule (sw d.dp) t vid d.flag ((if d.maintain then [] else [.popVlans 1]) ++ d.exits ++ [outEnd l2 d.port]) →
      Alone (sw d.dp) t vid d.flag (n.ports d.dp) →
      ∀ x : Pkt, x.tags = (vid, d.flag) :: p.tags → (∃ q ∈ n.ports d.dp, x.hdr fInPort = some q.num) →
      ∀ es, Proc (sw d.dp) t x es ↔ F x.hdr es) :
    ∃ q ∈ n.ports s.dp, ∃ e : Emit, q.running = true ∧ e.port = q.num ∧ e.tags = (vid, d.flag) :: p.tags ∧ e.hdr = p.hdr ∧
      shortestPath g s.dp d.dp = s.dp :: shortestPath g q.peerDp d.dp ∧
      (a.allows = false → ∀ es, Proc (sw s.dp) t p es ↔ es = [e]) ∧
      (a.allows = true → ∀ es, Proc (sw s.dp) t p es ↔ ∃ es',
        Proc (sw s.dp) (if a.force = some 1 then c.forceTable else c.allowTable) p es' ∧ es = e :: es') ∧
      ∃ hdr, (∀ f, f ≠ fInPort → f ≠ fMetadata → hdr f = p.hdr f) ∧
        Delivered sw t n (shortestPath g q.peerDp d.dp) q.peerDp (arrive e q.peerNum) (F hdr) := by
  obtain ⟨q, h1, h2, h3, h4, h5, h6⟩ := shortestPathPort_spec h.shared h.src h.conn h.far
  obtain ⟨rules, l, hr1, hr2, hr3⟩ := h.rules
  rw [fwd_entry h.shared h.cabled rfl h.src h.conn h.far h1] at hr2
  injection hr2 with hr2
  subst hr2
  obtain ⟨r, inst, ms, hp1, hp2, hp3⟩ := h.picks
  have ho := (h.cabled.real _ q h2).2
  refine ⟨q, h2, ⟨q.num, (vid, d.flag) :: p.tags, p.hdr⟩, h3, rfl, rfl, rfl, h6, ?_, ?_, ?_⟩
  · intro hno
    exact enter d.flag hp1 h.tunnel hno hr1 hr3 hp2 hp3 h.legal ho (h.edge q h2)
  · intro hal
    exact enter_allowed d.flag hp1 h.tunnel hal hr1 hr3 hp2 hp3 h.legal ho (h.edge q h2)
  · exact carried_fwd h.shared h.cabled h.src h.conn h.far h.ready (fun o ho => (h.port o ho).1) fin h1 p.hdr

/-- **C48.** A packet that enters a tunnel to a port leaves at that port only, with the tags it entered with (or the tag
of the tunnel on top, if that is asked for), whatever the number of switches on the way and whatever tags it has. -/
theorem tunnel_delivers (h : Entered sw t l2 vid n g d s p c a) (hno : a.allows = false) (hx : d.exits = []) {o : Nat}
    (ho : d.port = some o) :
    ∃ hdr, (∀ f, f ≠ fInPort → f ≠ fMetadata → hdr f = p.hdr f) ∧
      Delivered sw t n (shortestPath g s.dp d.dp) s.dp p (fun es => es = [⟨o, d.outTags vid p.tags, hdr⟩]) := by
  obtain ⟨q, h1, e, h2, h3, h4, h5, h6, h7, _, hdr, h9, h10⟩ := h.way
    (F := fun hdr es => es = [⟨o, d.outTags vid p.tags, hdr⟩]) (by
      intro hr ha x hx1 hx2 es
      rw [hx, ho] at hr
      rw [exit_step (by intro a ha; cases ha) hr ha (by rw [hx1]; rfl) hx2]
      obtain ⟨y, hy1, hy2⟩ := hx2
      have hne : y.num ≠ o := (h.port o ho).2.2 y hy1
      simp only [actsOf, List.flatMap_nil, List.nil_append, runActs]
      rw [emitPort_other (h.port o ho).2.1 (by simp only [hy2]; simpa using hne)]
      cases hm : d.maintain <;> simp [Dest.outTags, hx1, hm])
  refine ⟨hdr, h9, ?_⟩
  rw [h6]
  exact .hop (h7 hno) h1 h2 h3.symm h10

/-- The exit instructions act on the packet that entered. -/
theorem tunnel_delivers_exits (h : Entered sw t l2 vid n g d s p c a) (hno : a.allows = false) (hx : NoGoto d.exits)
    {o : Nat} (ho : d.port = some o) :
    ∃ hdr, (∀ f, f ≠ fInPort → f ≠ fMetadata → hdr f = p.hdr f) ∧
      Delivered sw t n (shortestPath g s.dp d.dp) s.dp p
        (fun es => es = (runActs (sw d.dp).groups (actsOf d.exits ++ [.output o]) ⟨hdr, d.outTags vid p.tags⟩).1) := by
  obtain ⟨q, h1, e, h2, h3, h4, h5, h6, h7, _, hdr, h9, h10⟩ := h.way
    (F := fun hdr es => es = (runActs (sw d.dp).groups (actsOf d.exits ++ [.output o]) ⟨hdr, d.outTags vid p.tags⟩).1) (by
      intro hr ha x hx1 hx2 es
      rw [ho] at hr
      rw [exit_step hx hr ha (by rw [hx1]; rfl) hx2]
      cases hm : d.maintain <;> simp [Dest.outTags, hx1, hm])
  refine ⟨hdr, h9, ?_⟩
  rw [h6]
  exact .hop (h7 hno) h1 h2 h3.symm h10

/-- A tunnel to a switch: there the packet goes on in the `eth_dst` table, as it entered. -/
theorem tunnel_delivers_dp (h : Entered sw t l2 vid n g d s p c a) (hno : a.allows = false) (hx : d.exits = [])
    (ho : d.port = none) :
    ∃ hdr, (∀ f, f ≠ fInPort → f ≠ fMetadata → hdr f = p.hdr f) ∧
      Delivered sw t n (shortestPath g s.dp d.dp) s.dp p
        (fun es => Proc (sw d.dp) l2 ⟨hdr, d.outTags vid p.tags⟩ es) := by
  obtain ⟨q, h1, e, h2, h3, h4, h5, h6, h7, _, hdr, h9, h10⟩ := h.way
    (F := fun hdr es => Proc (sw d.dp) l2 ⟨hdr, d.outTags vid p.tags⟩ es) (by
      intro hr ha x hx1 hx2 es
      rw [hx, ho] at hr
      rw [exit_step_l2 hr ha (by rw [hx1]; rfl) hx2]
      cases hm : d.maintain <;> simp [Dest.outTags, hx1, hm])
  refine ⟨hdr, h9, ?_⟩
  rw [h6]
  exact .hop (h7 hno) h1 h2 h3.symm h10

/-- A rule that also allows the packet: a copy goes through the tunnel, and the packet itself goes on with its own tags. -/
theorem tunnel_and_allow (h : Entered sw t l2 vid n g d s p c a) (hal : a.allows = true) (hx : d.exits = []) {o : Nat}
    (ho : d.port = some o) :
    ∃ q ∈ n.ports s.dp, ∃ e : Emit, ∃ hdr, q.running = true ∧ e.port = q.num ∧
      (∀ f, f ≠ fInPort → f ≠ fMetadata → hdr f = p.hdr f) ∧
      (∀ es, Proc (sw s.dp) t p es ↔ ∃ es',
        Proc (sw s.dp) (if a.force = some 1 then c.forceTable else c.allowTable) p es' ∧ es = e :: es') ∧
      Delivered sw t n (shortestPath g q.peerDp d.dp) q.peerDp (arrive e q.peerNum)
        (fun es => es = [⟨o, d.outTags vid p.tags, hdr⟩]) := by
  obtain ⟨q, h1, e, h2, h3, h4, h5, h6, _, h8, hdr, h9, h10⟩ := h.way
    (F := fun hdr es => es = [⟨o, d.outTags vid p.tags, hdr⟩]) (by
      intro hr ha x hx1 hx2 es
      rw [hx, ho] at hr
      rw [exit_step (by intro a ha; cases ha) hr ha (by rw [hx1]; rfl) hx2]
      obtain ⟨y, hy1, hy2⟩ := hx2
      have hne : y.num ≠ o := (h.port o ho).2.2 y hy1
      simp only [actsOf, List.flatMap_nil, List.nil_append, runActs]
      rw [emitPort_other (h.port o ho).2.1 (by simp only [hy2]; simpa using hne)]
      cases hm : d.maintain <;> simp [Dest.outTags, hx1, hm])
  exact ⟨q, h1, e, hdr, h2, h3, h9, h8 hal, h10⟩

end

end Faucet.Tunnel
