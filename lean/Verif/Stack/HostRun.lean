import Verif.Stack.Unicast

/-!
# What switches of a stack come to know of a host, over any history (C65)
-/

namespace Faucet.Stack

/-- A history of what concerns the host. -/
def hostRun (c : HCfg) (n : Net) (h : Hosts) (evs : List HEvent) : Hosts := evs.foldl (hostStep c n) h

/-- No switch knows the host. -/
def noHosts : Hosts := fun _ => none

/-- The host is at edge port `k` of switch `e` and nowhere else: no other edge port hears it. -/
def StaysAt (e k : Nat) : HEvent → Prop
  | .packet s (.edge j) _ _ => s = e ∧ j = k
  | .packet _ (.stack _) _ _ => True
  | .forget _ => True

theorem nonStackLearned_fwd {c : HCfg} {h : Hosts} {order : List Nat} {s t : Nat}
    (ht : nonStackLearned c h order s = some t) :
    t ∈ order ∧ t ≠ s ∧ ∃ k x, h t = some ⟨.edge k, x⟩ ∧ c.fwd t k = true := by
  have key : ∀ b, (order.filter (fun t => t != s)).find? (learnedAt c h b) = some t →
      t ∈ order ∧ t ≠ s ∧ ∃ k x, h t = some ⟨.edge k, x⟩ ∧ c.fwd t k = true := by
    intro b hb
    have h1 := List.find?_some hb
    have h2 := List.mem_of_find?_eq_some hb
    rw [List.mem_filter] at h2
    refine ⟨h2.1, by simpa using h2.2, ?_⟩
    unfold learnedAt at h1
    cases hh : h t with
    | none => rw [hh] at h1; simp at h1
    | some x =>
      obtain ⟨l, x⟩ := x
      rw [hh] at h1
      cases l with
      | edge k =>
        simp only [Bool.and_eq_true] at h1
        exact ⟨k, x, rfl, h1.1⟩
      | stack p => simp at h1
  unfold nonStackLearned at ht
  cases h1 : (order.filter (fun t => t != s)).find? (learnedAt c h false) with
  | some t' =>
    rw [h1] at ht
    simp only [Option.some.injEq] at ht
    subst ht
    exact key _ h1
  | none =>
    rw [h1] at ht
    dsimp only at ht
    cases h2 : (order.filter (fun t => t != s)).find? (learnedAt c h true) with
    | some t' =>
      rw [h2] at ht
      dsimp only at ht
      split at ht
      · simp only [Option.some.injEq] at ht
        subst ht
        exact key _ h2
      · simp at ht
    | none => rw [h2] at ht; simp at ht

theorem nonStackLearned_spec {c : HCfg} {h : Hosts} {order : List Nat} {s t : Nat}
    (ht : nonStackLearned c h order s = some t) : t ≠ s ∧ ∃ k x, h t = some ⟨.edge k, x⟩ := by
  obtain ⟨_, h1, k, x, h2, _⟩ := nonStackLearned_fwd ht
  exact ⟨h1, k, x, h2⟩

theorem Rightly.set {port : Nat → Option SPort} {h : Hosts} {e k : Nat} (hr : Rightly port h e k) (s : Nat)
    {x : Option Ent} (hx : ∀ y, x = some y →
      (s = e ∧ y.loc = .edge k) ∨ (s ≠ e ∧ ∃ p, y.loc = .stack p ∧ port s = some p)) :
    Rightly port (h.set s x) e k := by
  intro t y hy
  unfold Hosts.set at hy
  by_cases ht : t = s
  · rw [if_pos ht] at hy
    subst ht
    exact hx y hy
  · rw [if_neg ht] at hy
    exact hr t y hy

theorem Rightly.learnOn {port : Nat → Option SPort} {c : HCfg} {h : Hosts} {e k : Nat}
    (hr : Rightly port h e k) (s : Nat) (now : Int) {l : Loc}
    (hx : (s = e ∧ l = .edge k) ∨ (s ≠ e ∧ ∃ p, l = .stack p ∧ port s = some p)) :
    Rightly port (learnOn c h s now l) e k := by
  have hs : Rightly port (h.set s (some ⟨l, now⟩)) e k := hr.set s (by
    rintro y hy
    simp only [Option.some.injEq] at hy
    subst hy
    exact hx)
  unfold Faucet.Stack.learnOn
  split
  · split
    · exact hr
    · exact hs
  · exact hs

/-- The port a switch uses towards a host in the learning mode of the VLAN. -/
theorem rightly_step {c : HCfg} {n : Net} {h : Hosts} {e k : Nat} {ev : HEvent}
    (hr : Rightly (fun s => towardsEdge c n s e) h e k) (hev : StaysAt e k ev) :
    Rightly (fun s => towardsEdge c n s e) (hostStep c n h ev) e k := by
  -- another switch that is asked: it can only be the host's
  have ask : ∀ order s t, nonStackLearned c h order s = some t → t = e ∧ s ≠ e := by
    intro order s t ht
    obtain ⟨h1, j, x, h2⟩ := nonStackLearned_spec ht
    rcases hr t _ h2 with ⟨h3, _⟩ | ⟨_, p, h4, _⟩
    · subst h3; exact ⟨rfl, fun h => h1 h.symm⟩
    · simp at h4
  cases ev with
  | forget s => exact hr.set s (by simp)
  | packet s inp now order =>
    show Rightly _ (match edgeLearnPort c n h order s inp with
      | some port => learnOn c h s now port
      | none => h) e k
    -- asked, the switch learns the host on its port towards the host's switch
    have asked : ∀ l, (match nonStackLearned c h order s with
        | some e' => (towardsEdge c n s e').map Loc.stack
        | none => none) = some l → s ≠ e ∧ ∃ p, l = .stack p ∧ towardsEdge c n s e = some p := by
      intro l hl
      cases hn : nonStackLearned c h order s with
      | none => rw [hn] at hl; simp at hl
      | some t =>
        obtain ⟨rfl, hs⟩ := ask _ _ _ hn
        rw [hn] at hl
        simp only [Option.map_eq_some_iff] at hl
        obtain ⟨p, h1, h2⟩ := hl
        exact ⟨hs, p, h2.symm, h1⟩
    cases hp : edgeLearnPort c n h order s inp with
    | none => exact hr
    | some l =>
      refine hr.learnOn s now ?_
      unfold edgeLearnPort at hp
      cases inp with
      | stack q => exact .inr (asked l hp)
      | edge j =>
        obtain ⟨rfl, rfl⟩ := hev
        dsimp only at hp
        split at hp
        · cases hn : nonStackLearned c h order s with
          | none =>
            rw [hn] at hp
            simp only [Option.some.injEq] at hp
            exact .inl ⟨rfl, hp.symm⟩
          | some t => exact absurd rfl (ask _ _ _ hn).2
        · simp only [Option.some.injEq] at hp
          exact .inl ⟨rfl, hp.symm⟩

/-- C65: whatever packets of a host that stays at one port are reported by which switches in which
order, and whatever is forgotten: what switches know of it is right. -/
theorem stays_rightly {c : HCfg} {n : Net} {e k : Nat} {evs : List HEvent}
    (hev : ∀ ev ∈ evs, StaysAt e k ev) :
    Rightly (fun s => towardsEdge c n s e) (hostRun c n noHosts evs) e k := by
  have : ∀ (evs : List HEvent) (h : Hosts), (∀ ev ∈ evs, StaysAt e k ev) →
      Rightly (fun s => towardsEdge c n s e) h e k →
      Rightly (fun s => towardsEdge c n s e) (hostRun c n h evs) e k := by
    intro evs
    induction evs with
    | nil => intro h _ hr; exact hr
    | cons ev evs ih =>
      intro h hev hr
      exact ih _ (fun x hx => hev x (List.mem_cons_of_mem _ hx)) (rightly_step hr (hev ev (by simp)))
  exact this evs _ hev (fun s x hx => by simp [noHosts] at hx)

/-- Towards every other switch of the stack there is a port. -/
theorem relative_exists {n : Net} {g : Graph} {r s d : Nat} (st : Settled n g r) (m : Mode)
    (hs : Connected (Adj g) s r) (hd : Connected (Adj g) d r) (hne : s ≠ d) :
    ∃ p, relativePort n s d = some p := by
  obtain ⟨w, hw, _⟩ := relative_hops_arrive st m s d hs hd
  cases hw with
  | here => exact absurd rfl hne
  | hop _ hp _ => exact ⟨_, hp⟩

/-- C65: a switch of the stack that hears, from the stack, a host whose own switch knows it, knows it
afterwards. -/
theorem hears_knows {c : HCfg} {n : Net} {g : Graph} {r e k s : Nat} (st : Settled n g r)
    (hv : c.viaRoot = true) (he : Connected (Adj g) e r) (hs : Connected (Adj g) s r) (hne : s ≠ e) {h : Hosts}
    (hr : Rightly (fun s => towardsEdge c n s e) h e k)
    {x : Int} (hk : h e = some ⟨.edge k, x⟩) (hf : c.fwd e k = true) (hx : c.ext e k = true → h s = none)
    (q : SPort) (now : Int) {order : List Nat} (ho : e ∈ order) :
    hostStep c n h (.packet s (.stack q) now order) s ≠ none := by
  have ho' : e ∈ order.filter (fun t => t != s) :=
    List.mem_filter.2 ⟨ho, by simpa using fun h => hne h.symm⟩
  have hl : nonStackLearned c h order s ≠ none := by
    unfold nonStackLearned
    cases hfi : (order.filter (fun t => t != s)).find? (learnedAt c h false) with
    | some t => simp
    | none =>
      have h1 := List.find?_eq_none.1 hfi e ho'
      have hxe : c.ext e k = true := by simpa [learnedAt, hk, hf] using h1
      dsimp only
      cases hfi' : (order.filter (fun t => t != s)).find? (learnedAt c h true) with
      | some t => simp [hx hxe]
      | none =>
        have h2 := List.find?_eq_none.1 hfi' e ho'
        simp [learnedAt, hk, hf, hxe] at h2
  obtain ⟨t, ht⟩ := Option.ne_none_iff_exists'.1 hl
  obtain ⟨_, j, y, h2⟩ := nonStackLearned_spec ht
  have hte : t = e := by
    rcases hr t _ h2 with ⟨h3, _⟩ | ⟨_, p, h4, _⟩
    · exact h3
    · simp at h4
  subst hte
  obtain ⟨p, hp⟩ := relative_exists st ⟨true, fun _ => true, fun _ => true⟩ hs he hne
  have hl : edgeLearnPort c n h order s (.stack q) = some (.stack p) := by
    unfold edgeLearnPort towardsEdge
    simp only [ht, hv, if_true, hp, Option.map_some]
  have hset : ∀ l, learnOn c h s now l s ≠ none := by
    intro l
    unfold learnOn
    cases hh : h s with
    | none => simp [Hosts.set]
    | some y =>
      dsimp only
      split
      · rw [hh]; simp
      · simp [Hosts.set]
  show (match edgeLearnPort c n h order s (.stack q) with
      | some port => learnOn c h s now port
      | none => h) s ≠ none
  rw [hl]
  exact hset _

theorem learnOn_cases (c : HCfg) (h : Hosts) (s : Nat) (now : Int) (l : Loc) :
    (learnOn c h s now l = h ∧ h s ≠ none) ∨ learnOn c h s now l = h.set s (some ⟨l, now⟩) := by
  unfold learnOn
  split
  · rename_i x hx
    split
    · exact .inl ⟨rfl, by rw [hx]; simp⟩
    · exact .inr rfl
  · exact .inr rfl

theorem packet_cases (c : HCfg) (n : Net) (h : Hosts) (s : Nat) (inp : Loc) (now : Int) (order : List Nat) :
    hostStep c n h (.packet s inp now order) = h ∨
      ∃ l, hostStep c n h (.packet s inp now order) = h.set s (some ⟨l, now⟩) := by
  have : hostStep c n h (.packet s inp now order) = (match edgeLearnPort c n h order s inp with
      | some port => learnOn c h s now port
      | none => h) := rfl
  rw [this]
  split
  · rename_i l _
    rcases learnOn_cases c h s now l with h1 | h1
    · exact .inl h1.1
    · exact .inr ⟨l, h1⟩
  · exact .inl rfl

/-- C65: a switch that hears a host on an ordinary edge port knows it there afterwards, whatever it or
any other switch believed. -/
theorem own_port_learned (c : HCfg) (n : Net) (h : Hosts) (s k : Nat) (hx : c.ext s k = false) (now : Int)
    (order : List Nat) :
    ∃ t, hostStep c n h (.packet s (.edge k) now order) s = some ⟨.edge k, t⟩ := by
  have hl : edgeLearnPort c n h order s (.edge k) = some (.edge k) := by
    unfold edgeLearnPort
    simp only [hx, Bool.false_eq_true, if_false]
  have : hostStep c n h (.packet s (.edge k) now order) = learnOn c h s now (.edge k) := by
    show (match edgeLearnPort c n h order s (.edge k) with
      | some port => learnOn c h s now port
      | none => h) = _
    rw [hl]
  rw [this]
  unfold learnOn
  cases hh : h s with
  | none => exact ⟨now, by simp [Hosts.set]⟩
  | some y =>
    dsimp only
    split
    · rename_i hc
      unfold cacheFresh at hc
      have hn : localStackLearn c y.loc (.edge k) = false := by simp [localStackLearn]
      rw [hn, if_neg (by simp)] at hc
      split at hc
      · rename_i he
        obtain ⟨l, t⟩ := y
        dsimp only at he
        subst he
        exact ⟨t, hh⟩
      · simp at hc
    · exact ⟨now, by simp [Hosts.set]⟩

/-- C65: with reflection, a switch that has heard a host on its own port less than two seconds ago
does not believe what comes from the stack. -/
theorem reflection_ignored (c : HCfg) (n : Net) (h : Hosts) (s k : Nat) (hx : c.reflect = true) {t now : Int}
    (hh : h s = some ⟨.edge k, t⟩) (hnow : now < t + 2) {q : SPort}
    (hu : ∀ p, ∃ u, c.updated s (.stack p) = some u ∧ u ≤ t) (order : List Nat) :
    hostStep c n h (.packet s (.stack q) now order) = h := by
  show (match edgeLearnPort c n h order s (.stack q) with
      | some port => learnOn c h s now port
      | none => h) = h
  cases hl : edgeLearnPort c n h order s (.stack q) with
  | none => rfl
  | some l =>
    have hp : ∃ p, l = .stack p := by
      unfold edgeLearnPort at hl
      dsimp only at hl
      split at hl
      · simp only [Option.map_eq_some_iff] at hl
        obtain ⟨p, _, h2⟩ := hl
        exact ⟨p, h2.symm⟩
      · simp at hl
    obtain ⟨p, rfl⟩ := hp
    obtain ⟨u, h1, h2⟩ := hu p
    dsimp only
    have : cacheFresh c s now (.stack p) ⟨.edge k, t⟩ = true := by
      unfold cacheFresh localStackLearn stillValid
      simp only [hx, Bool.true_and, if_true, h1, Bool.and_eq_true, decide_eq_true_eq]
      exact ⟨by omega, h2⟩
    unfold learnOn
    rw [hh]
    dsimp only
    rw [if_pos this]

/-- C65: what a switch learns from the stack is the port towards a switch that has the host on an
edge port that forwards. -/
theorem learned_from_stack (c : HCfg) (n : Net) (h : Hosts) (s : Nat) (q : SPort) (now : Int) (order : List Nat)
    (hch : hostStep c n h (.packet s (.stack q) now order) ≠ h) :
    ∃ e ∈ order, e ≠ s ∧ (∃ k t, h e = some ⟨.edge k, t⟩ ∧ c.fwd e k = true) ∧
      ∃ p, towardsEdge c n s e = some p ∧
        hostStep c n h (.packet s (.stack q) now order) s = some ⟨.stack p, now⟩ := by
  have hdef : hostStep c n h (.packet s (.stack q) now order) =
      (match edgeLearnPort c n h order s (.stack q) with
      | some port => learnOn c h s now port
      | none => h) := rfl
  rw [hdef] at hch ⊢
  cases hl : edgeLearnPort c n h order s (.stack q) with
  | none => rw [hl] at hch; exact absurd rfl hch
  | some l =>
    rw [hl] at hch
    dsimp only at hch ⊢
    unfold edgeLearnPort at hl
    dsimp only at hl
    cases ht : nonStackLearned c h order s with
    | none => rw [ht] at hl; simp at hl
    | some e =>
      rw [ht] at hl
      simp only [Option.map_eq_some_iff] at hl
      obtain ⟨p, h1, h2⟩ := hl
      subst h2
      obtain ⟨e1, e2, k, t, e3, e4⟩ := nonStackLearned_fwd ht
      refine ⟨e, e1, e2, ⟨k, t, e3, e4⟩, p, h1, ?_⟩
      rcases learnOn_cases c h s now (.stack p) with h3 | h3
      · exact absurd h3.1 hch
      · rw [h3]; simp [Hosts.set]

/-- Between the host's switch and the root, switches learn from the host up and forget from the
root down. -/
def Upward (g : Graph) (r e : Nat) (h : Hosts) : HEvent → Prop
  | .packet s _ _ _ => ∀ c, s ∈ shortestPath g e r → c ∈ shortestPath g e r → IsParent g r c s → h c ≠ none
  | .forget s => ∀ u, s ∈ shortestPath g e r → u ∈ shortestPath g e r → IsParent g r s u → h u = none

/-- Every event of a history is so. -/
def UpwardRun (c : HCfg) (n : Net) (g : Graph) (r e : Nat) : Hosts → List HEvent → Prop
  | _, [] => True
  | h, ev :: evs => Upward g r e h ev ∧ UpwardRun c n g r e (hostStep c n h ev) evs

theorem packet_other {c : HCfg} {n : Net} {h : Hosts} {s t : Nat} {inp : Loc} {now : Int} {order : List Nat}
    (hne : t ≠ s) : hostStep c n h (.packet s inp now order) t = h t := by
  rcases packet_cases c n h s inp now order with h1 | ⟨l, h1⟩ <;> rw [h1]
  unfold Hosts.set; rw [if_neg hne]

theorem packet_keeps {c : HCfg} {n : Net} {h : Hosts} {s t : Nat} {inp : Loc} {now : Int} {order : List Nat}
    (hk : h t ≠ none) : hostStep c n h (.packet s inp now order) t ≠ none := by
  rcases packet_cases c n h s inp now order with h1 | ⟨l, h1⟩ <;> rw [h1]
  · exact hk
  · unfold Hosts.set
    split
    · simp
    · exact hk

theorem unbroken_step {c : HCfg} {n : Net} {g : Graph} {r e : Nat} {h : Hosts} {ev : HEvent}
    (hu : Unbroken g r h e) (hev : Upward g r e h ev) : Unbroken g r (hostStep c n h ev) e := by
  intro s d hs hd hp hk
  cases ev with
  | packet u inp now order =>
    apply packet_keeps
    by_cases hsu : s = u
    · subst hsu; exact hev d hs hd hp
    · rw [packet_other hsu] at hk
      exact hu s d hs hd hp hk
  | forget u =>
    have hset : ∀ t, hostStep c n h (.forget u) t = if t = u then none else h t := fun t => rfl
    rw [hset] at hk ⊢
    by_cases hsu : s = u
    · rw [if_pos hsu] at hk; exact absurd rfl hk
    · rw [if_neg hsu] at hk
      by_cases hdu : d = u
      · subst hdu
        exact absurd (hev s hd hs hp) hk
      · rw [if_neg hdu]
        exact hu s d hs hd hp hk

theorem upward_unbroken {c : HCfg} {n : Net} {g : Graph} {r e : Nat} {evs : List HEvent}
    (hev : UpwardRun c n g r e noHosts evs) : Unbroken g r (hostRun c n noHosts evs) e := by
  have : ∀ (evs : List HEvent) (h : Hosts), UpwardRun c n g r e h evs → Unbroken g r h e →
      Unbroken g r (hostRun c n h evs) e := by
    intro evs
    induction evs with
    | nil => intro h _ hu; exact hu
    | cons ev evs ih => intro h hev hu; exact ih _ hev.2 (unbroken_step hu hev.1)
  exact this evs _ hev (fun s c _ _ _ hk => by simp [noHosts] at hk)

/-- C65: on a settled stack without parallel links, after any history in which a host stays at one
port and the switches between its own and the root learn it from the host up and forget it from the
root down, a packet to it from any port of any switch reaches it exactly once and dies out.
Missing: parallel links, and histories that leave a gap (`gap_defect`); hosts that move
(`moved_host_defect`); learning by shortest path.  `known_in_stack_partial` covers parallel links and
both learning modes once every switch knows the host. -/
theorem unicast_in_stack_partial {c : HCfg} {n : Net} {g : Graph} {r e k : Nat} (st : Settled n g r)
    (np : NoParallel n) (m : Mode) (hv : c.viaRoot = true) {evs : List HEvent}
    (hst : ∀ ev ∈ evs, StaysAt e k ev) (hup : UpwardRun c n g r e noHosts evs)
    (he : Connected (Adj g) e r) (s : Nat) (hs : Connected (Adj g) s r) (ext : Bool) :
    ∃ f, ∀ f', f ≤ f' → unicastFlight m n (hostRun c n noHosts evs) f' [(s, .host ext)] = [] ∧
      unicastCopies m n (hostRun c n noHosts evs) e k f' [(s, .host ext)] = 1 := by
  have hr := stays_rightly (c := c) (n := n) hst
  have hr' : Rightly (fun s => relativePort n s e) (hostRun c n noHosts evs) e k := by
    intro s x hx
    have := hr s x hx
    simpa [towardsEdge, hv] using this
  exact unicast_once_partial st np m he hr' (upward_unbroken hup) s hs ext

/-! ## A host that every switch knows -/

/-- Copies follow the ports switches use towards the host. -/
theorem known_once {n : Net} {g : Graph} {r e k : Nat} (st : Settled n g r) (m : Mode) {hs : Hosts}
    {port : Nat → Option SPort} (hport : ∀ s p, port s = some p → p ∈ n.ports s)
    (hr : Rightly port hs e k) {s : Nat} {w : List Nat} (hw : Visits port e s w) :
    ∀ (inp : Ingress), (∀ u ∈ w, hs u ≠ none) → w.Nodup → (∀ q, inp = .stack q → q.peerDp ∉ w) →
      ∀ f, w.length ≤ f →
      unicastFlight m n hs f [(s, inp)] = [] ∧ unicastCopies m n hs e k f [(s, inp)] = 1 := by
  induction hw with
  | here =>
    intro inp hall _ _ f hf
    obtain ⟨x, hx⟩ := Option.ne_none_iff_exists'.1 (hall e (by simp))
    obtain ⟨f, rfl⟩ : ∃ f', f = f' + 1 := ⟨f - 1, by simp at hf; omega⟩
    rw [uflight_step, ucopies_step]
    rcases hr e x hx with ⟨h1, h2⟩ | ⟨h1, _⟩
    · obtain ⟨a1, a2⟩ := at_edge (n := n) m (inp := inp) e k hx h2 rfl
      rw [a1, a2, uflight_nil, ucopies_nil]
      exact ⟨rfl, rfl⟩
    · exact absurd rfl h1
  | @hop s p w hne hp hw ih =>
    intro inp hall hn hin f hf
    obtain ⟨x, hx⟩ := Option.ne_none_iff_exists'.1 (hall s (by simp))
    obtain ⟨f, rfl⟩ : ∃ f', f = f' + 1 := ⟨f - 1, by simp at hf; omega⟩
    rw [uflight_step, ucopies_step]
    rcases hr s x hx with ⟨h1, _⟩ | ⟨_, p', h2, h3⟩
    · exact absurd h1 hne
    · rw [hp] at h3
      simp only [Option.some.injEq] at h3
      subst h3
      obtain ⟨a1, a2⟩ := at_known (n := n) m (inp := inp) e k hx h2
      obtain ⟨q, hq, q1, q2, q3, _⟩ := st.remote (hport s p hp)
      have hcr : cross n p = some (p.peerDp, .stack q) := by unfold cross; rw [hq]; rfl
      have hpw : p.peerDp ∈ w := by
        cases hw with
        | here => simp
        | hop _ _ _ => simp
      have hne' : inp ≠ .stack p := fun h => hin p h (List.mem_cons_of_mem _ hpw)
      rw [a1, a2, if_neg hne', hcr, Option.toList_some]
      rw [List.nodup_cons] at hn
      obtain ⟨i1, i2⟩ := ih (.stack q) (fun u hu => hall u (List.mem_cons_of_mem _ hu)) hn.2 (fun q' hq' => by
        simp only [Ingress.stack.injEq] at hq'
        subst hq'
        rw [q3]; exact hn.1) f (by simpa using hf)
      exact ⟨i1, by rw [i2]⟩

theorem shortestPathPort_mem {n : Net} {s d : Nat} {p : SPort} (h : shortestPathPort n s d = some p) :
    p ∈ n.ports s := by
  unfold shortestPathPort at h
  split at h
  · exact (List.mem_filter.1 (canonOrder_head h).1).1
  · simp at h

theorem relativePort_mem {n : Net} {s d : Nat} {p : SPort} (h : relativePort n s d = some p) :
    p ∈ n.ports s := by
  unfold relativePort at h
  split at h
  · exact shortestPathPort_mem h
  · split at h
    · exact shortestPathPort_mem h
    · split at h
      · have h2 := List.mem_of_find?_eq_some h
        unfold away at h2
        exact (mem_peerPorts.1 (List.mem_filter.1 h2).1).1
      · have h1 := List.mem_of_mem_head? h
        have h2 := (mem_canonUp.1 h1).1
        unfold chosenTowards at h2
        have h3 := (List.mem_filter.1 h2).1
        unfold towards at h3
        split at h3
        · simp at h3
        · exact (mem_peerPorts.1 (List.mem_filter.1 h3).1).1

theorem connected_trans {g : Graph} {a b c : Nat} (h1 : Connected (Adj g) a b) (h2 : Connected (Adj g) b c) :
    Connected (Adj g) a c := by
  obtain ⟨w, hw⟩ := h1
  induction hw with
  | refl => exact h2
  | step hr _ ih => exact .step hr (ih h2)

theorem visits_connected {n : Net} {g : Graph} {r : Nat} (st : Settled n g r) (c : HCfg)
    (sh : c.viaRoot = false → Shared n g) {e s : Nat} {w : List Nat}
    (he : Connected (Adj g) e r) (hw : Visits (fun u => towardsEdge c n u e) e s w) :
    Connected (Adj g) s r → ∀ u ∈ w, Connected (Adj g) u r := by
  induction hw with
  | here => intro h u hu; simp at hu; rw [hu]; exact h
  | @hop s p w hne hp hw ih =>
    intro h
    have hpc : Connected (Adj g) p.peerDp r := by
      cases hv : c.viaRoot with
      | true =>
        unfold towardsEdge at hp
        rw [if_pos hv] at hp
        by_cases hmem : s ∈ shortestPath g e r
        · obtain ⟨_, _, _, _, _, _, b6⟩ := relative_down st h he hne hmem hp
          exact b6
        · rw [relative_up st h he hmem] at hp
          obtain ⟨_, k2, _⟩ := (chosenPort_iff st h).1 hp
          exact parent_inStack st h k2
      | false =>
        unfold towardsEdge at hp
        rw [if_neg (by simp [hv])] at hp
        obtain ⟨p', b1, _, _, b4, _⟩ := shortestPathPort_spec (sh hv) (inStack_mem st h)
          (connected_trans h (connected_symm he)) hne
        rw [hp] at b1
        simp only [Option.some.injEq] at b1
        subst b1
        exact .step b4.symm h
    intro u hu
    rcases List.mem_cons.1 hu with rfl | hu
    · exact h
    · exact ih hpc u hu

/-- C65: after any history in which a host stays at one port, if every switch of the stack knows it
then a packet to it from any port of any switch reaches it exactly once and dies out, in either
learning mode and with parallel links too. -/
theorem known_in_stack_partial {c : HCfg} {n : Net} {g : Graph} {r e k : Nat} (st : Settled n g r)
    (sh : c.viaRoot = false → Shared n g) (m : Mode) {evs : List HEvent} (hst : ∀ ev ∈ evs, StaysAt e k ev)
    (he : Connected (Adj g) e r) (s : Nat) (hs : Connected (Adj g) s r)
    (hall : ∀ u, Connected (Adj g) u r → hostRun c n noHosts evs u ≠ none) (ext : Bool) :
    ∃ f, ∀ f', f ≤ f' → unicastFlight m n (hostRun c n noHosts evs) f' [(s, .host ext)] = [] ∧
      unicastCopies m n (hostRun c n noHosts evs) e k f' [(s, .host ext)] = 1 := by
  have hr := stays_rightly (c := c) (n := n) hst
  have hw : ∃ w, Visits (fun u => towardsEdge c n u e) e s w ∧ w.Nodup := by
    cases hv : c.viaRoot with
    | true =>
      obtain ⟨w, h1, h2, _⟩ := relative_hops_arrive st m s e hs he
      exact ⟨w, by simpa [towardsEdge, hv] using h1, h2⟩
    | false =>
      obtain ⟨w, h1, h2, _⟩ := next_hops_arrive (sh hv) s e (inStack_mem st hs)
        (connected_trans hs (connected_symm he))
      exact ⟨w, by simpa [towardsEdge, hv] using h1, h2⟩
  obtain ⟨w, hw, hn⟩ := hw
  refine ⟨w.length, fun f hf => known_once st m ?_ hr hw _
    (fun u hu => hall u (visits_connected st c sh he hw hs u hu)) hn (fun q hq => by simp at hq) f hf⟩
  intro u p hp
  unfold towardsEdge at hp
  split at hp
  · exact relativePort_mem hp
  · exact shortestPathPort_mem hp

end Faucet.Stack
