import Verif.Service.Model
import Mathlib.Data.List.Nodup
import Mathlib.Data.List.Infix

/-! # Services: properties -/

namespace Faucet.Service

/-! ## Events (C51) -/

/-- Spec: ids of the events accepted by a history, `n` ids having been used before: events are numbered from 1 in the
order of the `notify` calls, refused ones included. -/
def accepted : Nat → List EvOp → List Nat
  | _, [] => []
  | n, .notify true :: ops => (n + 1) :: accepted (n + 1) ops
  | n, .notify false :: ops => accepted (n + 1) ops
  | n, .serve _ :: ops => accepted n ops

/-- Spec: number of `notify` calls. -/
def notifies : List EvOp → Nat
  | [] => 0
  | .notify _ :: ops => notifies ops + 1
  | .serve _ :: ops => notifies ops

theorem accepted_append (n : Nat) (a b : List EvOp) :
    accepted n (a ++ b) = accepted n a ++ accepted (n + notifies a) b := by
  induction a generalizing n with
  | nil => rfl
  | cons op a ih =>
    cases op with
    | notify ok => cases ok <;> simp [accepted, notifies, ih, Nat.add_assoc, Nat.add_comm 1]
    | serve ok => simp [accepted, notifies, ih]

theorem run_append (n : Notifier) (a b : List EvOp) : n.run (a ++ b) = (n.run a).run b := by
  unfold Notifier.run; rw [List.foldl_append]

theorem notifies_append (a b : List EvOp) : notifies (a ++ b) = notifies a + notifies b := by
  induction a with
  | nil => simp [notifies]
  | cons op a ih => cases op <;> simp [notifies, ih] <;> omega

/-- The invariant of the notifier after a history. -/
structure EvInv (ops : List EvOp) (n : Notifier) : Prop where
  id : n.eventId = notifies ops
  sorted : (accepted 0 ops).Pairwise (· < ·)
  le : ∀ e ∈ accepted 0 ops, e ≤ n.eventId
  sub : (n.delivered ++ n.queue).Sublist (accepted 0 ops)
  suffix : n.queue <:+ accepted 0 ops
  len : n.queue.length ≤ queueSize
  lost : (∀ op ∈ ops, op ≠ .serve false) → ∀ e ∈ accepted 0 ops,
    e ∈ n.delivered ∨ e ∈ n.queue ∨ queueSize ≤ ((accepted 0 ops).filter (fun x => e < x)).length

theorem evInv (ops : List EvOp) : EvInv ops (Notifier.run {} ops) := by
  induction ops using List.reverseRecOn with
  | nil =>
    refine ⟨rfl, by simp [accepted], by simp [accepted], ?_, ?_, ?_, by simp [accepted]⟩
    · simp [Notifier.run, accepted]
    · simp [Notifier.run]
    · simp [Notifier.run]
  | append_singleton ops op ih =>
    rw [run_append]
    generalize hn : Notifier.run {} ops = n at ih
    have hacc := accepted_append 0 ops [op]
    rw [Nat.zero_add, ← ih.id] at hacc
    cases op with
    | notify ok =>
      cases ok with
      | false =>
        have hacc' : accepted 0 (ops ++ [.notify false]) = accepted 0 ops := by rw [hacc]; simp [accepted]
        have hr : n.run [.notify false] = { n with eventId := n.eventId + 1 } := by simp [Notifier.run, Notifier.step, Notifier.notify]
        rw [hr]
        refine ⟨?_, ?_, ?_, ?_, ?_, ih.len, ?_⟩
        · rw [notifies_append]; simp [notifies, ih.id]
        · rw [hacc']; exact ih.sorted
        · rw [hacc']; intro e he; have := ih.le e he; show e ≤ n.eventId + 1; omega
        · rw [hacc']; exact ih.sub
        · rw [hacc']; exact ih.suffix
        · rw [hacc']; intro hs; exact ih.lost (fun op hop => hs op (List.mem_append_left _ hop))
      | true =>
        have hacc' : accepted 0 (ops ++ [.notify true]) = accepted 0 ops ++ [n.eventId + 1] := by rw [hacc]; simp [accepted]
        have hr : n.run [.notify true] = Notifier.mk (n.eventId + 1)
            ((if n.queue.length ≥ queueSize then n.queue.tail else n.queue) ++ [n.eventId + 1]) n.delivered := by
          simp [Notifier.run, Notifier.step, Notifier.notify]
        rw [hr]
        have hle : ∀ e ∈ accepted 0 ops, e < n.eventId + 1 := fun e he => by have := ih.le e he; omega
        refine ⟨?_, ?_, ?_, ?_, ?_, ?_, ?_⟩
        · rw [notifies_append]; simp [notifies, ih.id]
        · rw [hacc', List.pairwise_append]
          exact ⟨ih.sorted, by simp, fun a ha b hb => by simp at hb; subst hb; exact hle a ha⟩
        · rw [hacc']; intro e he
          show e ≤ n.eventId + 1
          rcases List.mem_append.1 he with he | he
          · have := hle e he; omega
          · simp at he; omega
        · rw [hacc', ← List.append_assoc]
          refine List.Sublist.append ?_ (List.Sublist.refl _)
          split
          · exact (List.Sublist.append (List.Sublist.refl _) (List.tail_sublist _)).trans ih.sub
          · exact ih.sub
        · rw [hacc']
          show (if n.queue.length ≥ queueSize then n.queue.tail else n.queue) ++ [n.eventId + 1] <:+ _
          obtain ⟨pre, hpre⟩ := ih.suffix
          split
          · cases hq : n.queue with
            | nil => exact ⟨accepted 0 ops, by simp⟩
            | cons h t => exact ⟨pre ++ [h], by rw [← hpre, hq]; simp⟩
          · exact ⟨pre, by rw [← hpre]; simp⟩
        · show ((if n.queue.length ≥ queueSize then n.queue.tail else n.queue) ++ [n.eventId + 1]).length ≤ queueSize
          have := ih.len
          rw [List.length_append]
          split
          · rw [List.length_tail]; simp only [List.length_singleton, queueSize] at *; omega
          · rename_i h; simp only [List.length_singleton]; omega
        · intro hs e he
          rw [hacc'] at he
          have hs' : ∀ op ∈ ops, op ≠ .serve false := fun op hop => hs op (List.mem_append_left _ hop)
          show e ∈ n.delivered ∨ e ∈ (if n.queue.length ≥ queueSize then n.queue.tail else n.queue) ++ [n.eventId + 1] ∨ _
          rcases List.mem_append.1 he with he | he
          · rcases ih.lost hs' e he with h1 | h1 | h1
            · exact Or.inl h1
            · split
              · rename_i hfull
                cases hq : n.queue with
                | nil => rw [hq] at h1; simp at h1
                | cons h t =>
                  rw [hq] at h1
                  rcases List.mem_cons.1 h1 with h1 | h1
                  · refine Or.inr (Or.inr ?_)
                    obtain ⟨pre, hpre⟩ := ih.suffix
                    have hsrt := ih.sorted
                    rw [← hpre, hq] at hsrt
                    have hht := (List.pairwise_cons.1 (List.pairwise_append.1 hsrt).2.1).1
                    rw [hacc', ← hpre, hq, List.filter_append, List.filter_append, List.length_append, List.length_append]
                    have ht : (h :: t).filter (fun x => decide (e < x)) = t := by
                      rw [List.filter_cons, if_neg (by simp [h1]), List.filter_eq_self]
                      intro x hx; simp [h1, hht x hx]
                    have hn1 : ([n.eventId + 1].filter (fun x => decide (e < x))).length = 1 := by
                      rw [List.filter_cons, if_pos (by have := hle e he; simpa using this)]; simp
                    rw [ht, hn1]
                    rw [hq, List.length_cons] at hfull
                    omega
                  · exact Or.inr (Or.inl (by simp [h1]))
              · exact Or.inr (Or.inl (by simp [h1]))
            · refine Or.inr (Or.inr ?_)
              rw [hacc', List.filter_append, List.length_append]; omega
          · exact Or.inr (Or.inl (List.mem_append_right _ he))
    | serve ok =>
      have hacc' : accepted 0 (ops ++ [.serve ok]) = accepted 0 ops := by rw [hacc]; simp [accepted]
      have hr : n.run [.serve ok] = n.serve ok := rfl
      rw [hr]
      unfold Notifier.serve
      cases hq : n.queue with
      | nil =>
        refine ⟨?_, ?_, ?_, ?_, ?_, ?_, ?_⟩
        · rw [notifies_append]; simp [notifies, ih.id]
        · rw [hacc']; exact ih.sorted
        · rw [hacc']; exact ih.le
        · rw [hacc']; exact ih.sub
        · rw [hacc']; exact ih.suffix
        · exact ih.len
        · rw [hacc']; intro hs; exact ih.lost (fun op hop => hs op (List.mem_append_left _ hop))
      | cons e0 q =>
        refine ⟨?_, ?_, ?_, ?_, ?_, ?_, ?_⟩
        · rw [notifies_append]; simp [notifies, ih.id]
        · rw [hacc']; exact ih.sorted
        · rw [hacc']; exact ih.le
        · rw [hacc']
          refine List.Sublist.trans ?_ ih.sub
          show ((if ok = true then n.delivered ++ [e0] else n.delivered) ++ q).Sublist _
          rw [hq]
          split
          · simp
          · exact List.Sublist.append (List.Sublist.refl _) (List.sublist_cons_self _ _)
        · rw [hacc']
          have := ih.suffix
          rw [hq] at this
          exact (List.suffix_cons e0 q).trans this
        · have := ih.len; rw [hq, List.length_cons] at this
          show q.length ≤ _
          omega
        · rw [hacc']
          intro hs e he
          have hok : ok = true := by
            cases ok with
            | true => rfl
            | false => exact absurd rfl (hs (.serve false) (by simp))
          subst hok
          show e ∈ (if true = true then n.delivered ++ [e0] else n.delivered) ∨ e ∈ q ∨ _
          rw [if_pos rfl]
          rcases ih.lost (fun op hop => hs op (List.mem_append_left _ hop)) e he with h1 | h1 | h1
          · exact Or.inl (List.mem_append_left _ h1)
          · rw [hq] at h1
            rcases List.mem_cons.1 h1 with h1 | h1
            · exact Or.inl (by simp [h1])
            · exact Or.inr (Or.inl h1)
          · exact Or.inr (Or.inr h1)

/-- After any history, what was delivered followed by what is queued is in the order of the events with strictly
increasing ids, all of them accepted events, and at most 120 are queued. -/
theorem events_in_order (ops : List EvOp) :
    ((Notifier.run {} ops).delivered ++ (Notifier.run {} ops).queue).Pairwise (· < ·) ∧
    ((Notifier.run {} ops).delivered ++ (Notifier.run {} ops).queue).Sublist (accepted 0 ops) ∧
    (Notifier.run {} ops).queue.length ≤ 120 :=
  ⟨(evInv ops).sorted.sublist (evInv ops).sub, (evInv ops).sub, (evInv ops).len⟩

/-- The queue holds the newest events without gap. -/
theorem events_newest_kept (ops : List EvOp) : ∃ older, accepted 0 ops = older ++ (Notifier.run {} ops).queue := by
  obtain ⟨pre, h⟩ := (evInv ops).suffix
  exact ⟨pre, h.symm⟩

/-- As long as no client fails, an accepted event is delivered or queued, unless 120 newer events were accepted. -/
theorem only_oldest_events_lost (ops : List EvOp) (hok : ∀ op ∈ ops, op ≠ .serve false) (e : Nat) (he : e ∈ accepted 0 ops) :
    e ∈ (Notifier.run {} ops).delivered ∨ e ∈ (Notifier.run {} ops).queue ∨
      120 ≤ ((accepted 0 ops).filter (fun x => e < x)).length :=
  (evInv ops).lost hok e he

/-- 122 events and two reads: the first two are lost, 3 and 4 are delivered. -/
example : (∀ op ∈ (List.replicate 122 (EvOp.notify true) ++ [.serve true, .serve true]), op ≠ EvOp.serve false) ∧
    1 ∈ accepted 0 (List.replicate 122 (EvOp.notify true) ++ [.serve true, .serve true]) ∧
    (Notifier.run {} (List.replicate 122 (EvOp.notify true) ++ [.serve true, .serve true])).delivered = [3, 4] := by
  decide +kernel

/-- An event the client loop has taken is gone if sending it fails: lost although the queue was never full. -/
theorem event_lost_on_disconnect_defect : ∃ ops : List EvOp, 1 ∈ accepted 0 ops ∧
    1 ∉ (Notifier.run {} ops).delivered ∧ 1 ∉ (Notifier.run {} ops).queue ∧ (accepted 0 ops).length < 120 :=
  ⟨[.notify true, .serve false], by decide⟩

/-! ## Rate limit (C38) -/

theorem Limiter.run_append (l : Limiter) (n : Nat) (ts us : List Nat) :
    l.run n (ts ++ us) = l.run n ts ++ (ts.foldl (fun l t => (l.packetIn n t).1) l).run n us := by
  induction ts generalizing l with
  | nil => rfl
  | cons t ts ih => simp [Limiter.run, ih]

theorem Limiter.run_length (l : Limiter) (n : Nat) (ts : List Nat) : (l.run n ts).length = ts.length := by
  induction ts generalizing l with
  | nil => rfl
  | cons t ts ih => simp [Limiter.run, ih]

theorem limiter_state (n : Nat) (ts : List Nat) (h : ts.Pairwise (· ≤ ·)) :
    let l := ts.foldl (fun l t => (l.packetIn n t).1) ({} : Limiter)
    l.last = ts.getLast? ∧ ∀ t, l.last = some t → l.count = ts.count t := by
  induction ts using List.reverseRecOn with
  | nil => simp
  | append_singleton ts t ih =>
    rw [List.pairwise_append] at h
    obtain ⟨h1, h2⟩ := ih h.1
    simp only [List.foldl_append, List.foldl_cons, List.foldl_nil] at h1 h2 ⊢
    generalize hl : ts.foldl (fun l t => (l.packetIn n t).1) ({} : Limiter) = l at h1 h2
    refine ⟨by simp [Limiter.packetIn], ?_⟩
    intro u hu
    have hut : u = t := by simpa [Limiter.packetIn] using hu.symm
    subst hut
    show (if l.last ≠ some u then 0 else l.count) + 1 = _
    rw [List.count_append, List.count_singleton_self]
    congr 1
    split
    · rename_i hne
      symm
      rw [List.count_eq_zero]
      intro hm
      rcases List.eq_nil_or_concat' ts with h0 | ⟨ts', x, hx⟩
      · rw [h0] at hm; simp at hm
      · subst hx
        rw [List.getLast?_concat] at h1
        have hxu : x ≤ u := h.2.2 x (by simp) u (by simp)
        have hux : u ≤ x := by
          rcases List.mem_append.1 hm with hm | hm
          · exact (List.pairwise_append.1 h.1).2.2 u hm x (by simp)
          · simp at hm; omega
        exact hne (by rw [h1]; congr 1; omega)
    · rename_i hne
      exact h2 u (by simpa using hne)

/-- If packets are stamped with whole seconds, in order, then exactly every `n`-th packet of each second is ignored (and
none if the setting is 0). Missing from the full property: the controller stamps packets with fractions of a second, see
`rate_limit_fractional_defect`. -/
theorem rate_limit_whole_seconds_partial (n : Nat) (pre : List Nat) (t : Nat) (post : List Nat)
    (h : (pre ++ t :: post).Pairwise (· ≤ ·)) :
    ((({} : Limiter).run n (pre ++ t :: post))[pre.length]?) = some (n ≠ 0 && (pre.count t + 1) % n = 0) := by
  have hpre : pre.Pairwise (· ≤ ·) := (List.pairwise_append.1 h).1
  obtain ⟨h1, h2⟩ := limiter_state n pre hpre
  rw [Limiter.run_append, List.getElem?_append_right (by rw [Limiter.run_length]), Limiter.run_length]
  generalize hl : pre.foldl (fun l t => (l.packetIn n t).1) ({} : Limiter) = l at h1 h2 ⊢
  simp only [Nat.sub_self, Limiter.run, List.getElem?_cons_zero, Limiter.packetIn]
  have hc : (if l.last ≠ some t then 0 else l.count) = pre.count t := by
    split
    · rename_i hne
      symm
      rw [List.count_eq_zero]
      intro hm
      rcases List.eq_nil_or_concat' pre with h0 | ⟨ts', x, hx⟩
      · rw [h0] at hm; simp at hm
      · subst hx
        rw [List.getLast?_concat] at h1
        have hxu : x ≤ t := (List.pairwise_append.1 h).2.2 x (by simp) t (by simp)
        have hux : t ≤ x := by
          rcases List.mem_append.1 hm with hm | hm
          · exact (List.pairwise_append.1 hpre).2.2 t hm x (by simp)
          · simp at hm; omega
        exact hne (by rw [h1]; congr 1; omega)
    · rename_i hne
      exact h2 t (by simpa using hne)
  rw [hc]

example : ([5, 5, 5] ++ 6 :: [6, 7] : List Nat).Pairwise (· ≤ ·) ∧ ({} : Limiter).run 2 [5, 5, 5, 6, 6, 7] = [false, true, false, false, true, false] := by
  decide

/-- Packets whose time stamps all differ from the one before (as those of a clock with fractions of a second do) are never
ignored, however many there are per second, for any setting of at least 2. -/
theorem rate_limit_fractional_defect (n : Nat) (hn : 2 ≤ n) (l : Limiter) (ts : List Nat)
    (hd : (ts.zip ts.tail).all (fun p => p.1 != p.2) = true) (hl : ∀ t, ts.head? = some t → l.last ≠ some t) :
    ∀ d ∈ l.run n ts, d = false := by
  induction ts generalizing l with
  | nil => simp [Limiter.run]
  | cons t ts ih =>
    intro d hd'
    rw [Limiter.run] at hd'
    rcases List.mem_cons.1 hd' with h1 | h1
    · rw [h1]
      have := hl t rfl
      simp only [Limiter.packetIn, if_pos this]
      rw [Nat.zero_add, Nat.mod_eq_of_lt (by omega)]
      simp
    · refine ih _ ?_ ?_ d h1
      · cases ts with
        | nil => rfl
        | cons u us => simp only [List.tail_cons, List.zip_cons_cons, List.all_cons, Bool.and_eq_true] at hd ⊢; exact hd.2
      · intro u hu
        cases ts with
        | nil => simp at hu
        | cons u' us =>
          simp only [List.head?_cons, Option.some.injEq] at hu
          subst hu
          simp only [List.tail_cons, List.zip_cons_cons, List.all_cons, Bool.and_eq_true, bne_iff_ne] at hd
          simpa [Limiter.packetIn] using hd.1

/-- Twelve packets in the same second (milliseconds 1 to 12), limit 10: none is ignored. -/
example : ({} : Limiter).run 10 [1, 2, 3, 4, 5, 6, 7, 8, 9, 10, 11, 12] = List.replicate 12 false := by decide

/-! ## LLDP beacons (C52) -/

/-- A round sends on every running stack port with beacons; the other ports it sends on are at most `max_per_interval`,
run, have beacons, and did not send one within the interval; no port appears twice. -/
theorem beacon_round (shuffle : List BPort → List BPort) (hsh : ∀ l, (shuffle l).Perm l) (ps : List BPort)
    (hnd : (ps.map BPort.number).Nodup) (c : BCfg) (now : Nat) :
    (∀ p ∈ ps, p.stack = true → p.running = true → p.beacon = true → p ∈ sendPorts shuffle ps c now) ∧
    ((sendPorts shuffle ps c now).filter (fun p => !p.stack)).length ≤ c.maxPerInterval ∧
    (∀ p ∈ sendPorts shuffle ps c now, p ∈ ps ∧ p.running = true ∧ p.beacon = true ∧
      (p.stack = false → ∀ t, p.last = some t → t + c.sendInterval < now)) ∧
    ((sendPorts shuffle ps c now).map BPort.number).Nodup := by
  have hoth : ∀ p, p ∈ (shuffle (otherPorts ps c now)).take c.maxPerInterval →
      p ∈ ps ∧ p.running = true ∧ p.beacon = true ∧ p.due c now = true ∧ p.stack = false := by
    intro p hp
    have := (hsh _).mem_iff.1 (List.mem_of_mem_take hp)
    unfold otherPorts at this
    rw [List.mem_filter] at this
    obtain ⟨h1, h2⟩ := this
    simp only [Bool.and_eq_true, Bool.not_eq_true', Bool.and_eq_false_iff] at h2
    obtain ⟨⟨⟨hb, hr⟩, hd⟩, hs⟩ := h2
    refine ⟨h1, hr, hb, hd, ?_⟩
    rcases hs with (hs | hs) | hs
    · exact hs
    · rw [hr] at hs; simp at hs
    · rw [hb] at hs; simp at hs
  have hpri : ∀ p, p ∈ priorityPorts ps → p ∈ ps ∧ p.stack = true ∧ p.running = true ∧ p.beacon = true := by
    intro p hp
    unfold priorityPorts at hp
    rw [List.mem_filter] at hp
    simp only [Bool.and_eq_true] at hp
    exact ⟨hp.1, hp.2.1.1, hp.2.1.2, hp.2.2⟩
  refine ⟨?_, ?_, ?_, ?_⟩
  · intro p hp h1 h2 h3
    unfold sendPorts priorityPorts
    rw [List.mem_append, List.mem_filter]
    exact Or.inl ⟨hp, by simp [h1, h2, h3]⟩
  · unfold sendPorts
    rw [List.filter_append]
    have : (priorityPorts ps).filter (fun p => !p.stack) = [] := by
      rw [List.filter_eq_nil_iff]
      intro p hp; simp [(hpri p hp).2.1]
    rw [this, List.nil_append]
    refine Nat.le_trans (List.length_filter_le _ _) ?_
    rw [List.length_take]; omega
  · intro p hp
    unfold sendPorts at hp
    rcases List.mem_append.1 hp with hp | hp
    · obtain ⟨h1, h2, h3, h4⟩ := hpri p hp
      exact ⟨h1, h3, h4, fun hs => by rw [h2] at hs; simp at hs⟩
    · obtain ⟨h1, h2, h3, h4, _⟩ := hoth p hp
      refine ⟨h1, h2, h3, fun _ t ht => ?_⟩
      unfold BPort.due at h4
      rw [ht] at h4
      simpa using h4
  · unfold sendPorts
    rw [List.map_append, List.nodup_append]
    refine ⟨?_, ?_, ?_⟩
    · exact hnd.sublist (List.filter_sublist.map _)
    · refine List.Nodup.sublist ((List.take_sublist _ _).map _) ?_
      have := ((hsh (otherPorts ps c now)).map BPort.number).nodup_iff.2 (hnd.sublist (List.filter_sublist.map _))
      exact this
    · intro a ha b hb hab
      obtain ⟨p, hp, hpa⟩ := List.mem_map.1 ha
      obtain ⟨q, hq, hqb⟩ := List.mem_map.1 hb
      obtain ⟨h1, h2, _⟩ := hpri p hp
      obtain ⟨h3, _, _, _, h4⟩ := hoth q hq
      have : p = q := List.inj_on_of_nodup_map hnd h1 h3 (by rw [hpa, hqb, hab])
      rw [this, h4] at h2
      simp at h2

/-- What is remembered about sent beacons: port numbers stay unique, and the last time of a port that is not a stack port
is at least the time of anything sent on it. -/
structure BInv (s : Beacons) (log : List (Nat × Nat × Bool)) : Prop where
  nodup : (s.ports.map BPort.number).Nodup
  last : ∀ p ∈ s.ports, p.stack = false → ∀ t b, (t, p.number, b) ∈ log → ∃ l, p.last = some l ∧ t ≤ l
  kind : ∀ t n b, (t, n, b) ∈ log → ∃ p ∈ s.ports, p.number = n ∧ p.stack = b

/-- Spec: in the log, a beacon on a port that is not a stack port comes more than the interval after any earlier one on
that port. -/
def Spaced (interval : Nat) (log : List (Nat × Nat × Bool)) : Prop :=
  ∀ a t n b, log = a ++ (t, n, false) :: b → ∀ t' s, (t', n, s) ∈ a → t' + interval < t

theorem noteSent_number (sent : List BPort) (now : Nat) (p : BPort) : (noteSent sent now p).number = p.number ∧
    (noteSent sent now p).stack = p.stack := by
  unfold noteSent; split <;> exact ⟨rfl, rfl⟩

theorem spaced_append {i : Nat} {log new : List (Nat × Nat × Bool)} (h : Spaced i log)
    (hnew : ∀ x ∈ new, x.2.2 = false → ∀ t s, (t, x.2.1, s) ∈ log → t + i < x.1) (hnd : (new.map (fun x => x.2.1)).Nodup) :
    Spaced i (log ++ new) := by
  intro a t n b he t' s hm
  rcases List.append_eq_append_iff.1 he with ⟨x, hx1, hx2⟩ | ⟨x, hx1, hx2⟩
  · subst hx1
    have hin : (t, n, false) ∈ new := by rw [hx2]; simp
    rcases List.mem_append.1 hm with hm | hm
    · exact hnew _ hin rfl t' s hm
    · exfalso
      rw [hx2, List.map_append, List.nodup_append] at hnd
      exact hnd.2.2 n (List.mem_map.2 ⟨_, hm, rfl⟩) n (by simp) rfl
  · cases x with
    | nil =>
      simp at hx2
      have hin : (t, n, false) ∈ new := by rw [← hx2]; simp
      rw [List.append_nil] at hx1
      exact hnew _ hin rfl t' s (hx1 ▸ hm)
    | cons y x =>
      simp at hx2
      obtain ⟨rfl, _⟩ := hx2
      exact h a t n x hx1 t' s hm

theorem beacon_step {shuffle : List BPort → List BPort} (hsh : ∀ l, (shuffle l).Perm l) {c : BCfg} {s : Beacons}
    {log : List (Nat × Nat × Bool)} (hi : BInv s log) (hs : Spaced c.sendInterval log) (op : BOp) :
    BInv (s.step shuffle c op).1 (log ++ (match op with | .tick now => (s.step shuffle c op).2.map (fun p => (now, p.number, p.stack)) | _ => [])) ∧
    Spaced c.sendInterval (log ++ (match op with | .tick now => (s.step shuffle c op).2.map (fun p => (now, p.number, p.stack)) | _ => [])) := by
  cases op with
  | setRunning n up =>
    simp only [Beacons.step, List.append_nil]
    refine ⟨⟨?_, ?_, ?_⟩, hs⟩
    · have : (s.ports.map (fun p => if p.number = n then { p with running := up } else p)).map BPort.number = s.ports.map BPort.number := by
        rw [List.map_map]
        apply List.map_congr_left
        intro p _
        simp only [Function.comp]
        split <;> rfl
      rw [this]; exact hi.nodup
    · intro p hp hst t b hm
      obtain ⟨q, hq, he⟩ := List.mem_map.1 hp
      have hq' : p.number = q.number ∧ p.stack = q.stack ∧ p.last = q.last := by
        rw [← he]; split <;> exact ⟨rfl, rfl, rfl⟩
      rw [hq'.2.2]
      exact hi.last q hq (by rw [← hq'.2.1]; exact hst) t b (by rw [← hq'.1]; exact hm)
    · intro t m b hm
      obtain ⟨q, hq, h1, h2⟩ := hi.kind t m b hm
      refine ⟨_, List.mem_map.2 ⟨q, hq, rfl⟩, ?_, ?_⟩
      · split <;> exact h1
      · split <;> exact h2
  | tick now =>
    simp only [Beacons.step]
    split
    · obtain ⟨r1, r2, r3, r4⟩ := beacon_round shuffle hsh s.ports hi.nodup c now
      generalize sendPorts shuffle s.ports c now = sent at r1 r2 r3 r4
      have hnew : ∀ x ∈ sent.map (fun p => (now, p.number, p.stack)), x.2.2 = false → ∀ t b, (t, x.2.1, b) ∈ log →
          t + c.sendInterval < x.1 := by
        intro x hx hst t b hm
        obtain ⟨p, hp, he⟩ := List.mem_map.1 hx
        subst he
        obtain ⟨h1, _, _, h4⟩ := r3 p hp
        obtain ⟨l, hl1, hl2⟩ := hi.last p h1 hst t b hm
        have := h4 hst l hl1
        show t + _ < now
        omega
      refine ⟨⟨?_, ?_, ?_⟩, spaced_append hs hnew (by rw [List.map_map]; exact r4)⟩
      · have : (s.ports.map (noteSent sent now)).map BPort.number = s.ports.map BPort.number := by
          rw [List.map_map]
          apply List.map_congr_left
          intro p _
          exact (noteSent_number sent now p).1
        rw [this]; exact hi.nodup
      · intro p hp hst t b hm
        obtain ⟨q, hq, rfl⟩ := List.mem_map.1 hp
        obtain ⟨hn1, hn2⟩ := noteSent_number sent now q
        rw [hn1] at hm
        rw [hn2] at hst
        unfold noteSent
        by_cases hin : sent.any (fun r => r.number == q.number) = true
        · rw [if_pos hin]
          refine ⟨now, rfl, ?_⟩
          rcases List.mem_append.1 hm with hm | hm
          · obtain ⟨l, hl1, hl2⟩ := hi.last q hq hst t b hm
            obtain ⟨r, hr, hrn⟩ := List.any_eq_true.1 hin
            have hrq : r = q := List.inj_on_of_nodup_map hi.nodup (r3 r hr).1 hq (by simpa using hrn)
            subst hrq
            have := (r3 r hr).2.2.2 hst l hl1
            omega
          · obtain ⟨r, _, he⟩ := List.mem_map.1 hm
            have : t = now := by simpa using (congrArg Prod.fst he).symm
            omega
        · rw [if_neg hin]
          rcases List.mem_append.1 hm with hm | hm
          · exact hi.last q hq hst t b hm
          · obtain ⟨r, hr, he⟩ := List.mem_map.1 hm
            exfalso
            apply hin
            rw [List.any_eq_true]
            refine ⟨r, hr, ?_⟩
            have : r.number = q.number := by simpa using congrArg (fun x => x.2.1) he
            simp [this]
      · intro t m b hm
        rcases List.mem_append.1 hm with hm | hm
        · obtain ⟨q, hq, h1, h2⟩ := hi.kind t m b hm
          obtain ⟨hn1, hn2⟩ := noteSent_number sent now q
          exact ⟨_, List.mem_map.2 ⟨q, hq, rfl⟩, by rw [hn1]; exact h1, by rw [hn2]; exact h2⟩
        · obtain ⟨r, hr, he⟩ := List.mem_map.1 hm
          obtain ⟨hn1, hn2⟩ := noteSent_number sent now r
          simp only [Prod.mk.injEq] at he
          exact ⟨_, List.mem_map.2 ⟨r, (r3 r hr).1, rfl⟩, by rw [hn1]; exact he.2.1, by rw [hn2]; exact he.2.2⟩
    · simp only [List.map_nil, List.append_nil]
      exact ⟨hi, hs⟩

/-- **Beacons over time.** Whatever the ticks and port changes, from ports that never sent a beacon: two beacons on a port
that is not a stack port are more than the interval apart. -/
theorem beacons_spaced {shuffle : List BPort → List BPort} (hsh : ∀ l, (shuffle l).Perm l) (c : BCfg) (s : Beacons)
    (hnd : (s.ports.map BPort.number).Nodup) (ops : List BOp) : Spaced c.sendInterval (s.run shuffle c ops).2 := by
  have gen : ∀ (ops : List BOp) (s : Beacons) (log : List (Nat × Nat × Bool)), BInv s log → Spaced c.sendInterval log →
      Spaced c.sendInterval (log ++ (s.run shuffle c ops).2) := by
    intro ops
    induction ops with
    | nil => intro s log _ hs; simpa [Beacons.run] using hs
    | cons op ops ih =>
      intro s log hi hs
      obtain ⟨h1, h2⟩ := beacon_step hsh hi hs op
      have := ih _ _ h1 h2
      rw [List.append_assoc] at this
      exact this
  have := gen ops s [] ⟨hnd, by simp, by simp⟩ (by intro a t n b he; simp at he)
  simpa using this

/-- Spec: in the log, a beacon on any port comes at least the interval after any earlier one on that port. -/
def SpacedAll (interval : Nat) (log : List (Nat × Nat × Bool)) : Prop :=
  ∀ a t n k b, log = a ++ (t, n, k) :: b → ∀ t' k', (t', n, k') ∈ a → t' + interval ≤ t

theorem spacedAll_append {i : Nat} {log new : List (Nat × Nat × Bool)} (h : SpacedAll i log)
    (hnew : ∀ x ∈ new, ∀ y ∈ log, y.1 + i ≤ x.1) (hnd : (new.map (fun x => x.2.1)).Nodup) :
    SpacedAll i (log ++ new) := by
  intro a t n k b he t' k' hm
  rcases List.append_eq_append_iff.1 he with ⟨x, hx1, hx2⟩ | ⟨x, hx1, hx2⟩
  · subst hx1
    have hin : (t, n, k) ∈ new := by rw [hx2]; simp
    rcases List.mem_append.1 hm with hm | hm
    · exact hnew _ hin _ hm
    · exfalso
      rw [hx2, List.map_append, List.nodup_append] at hnd
      exact hnd.2.2 n (List.mem_map.2 ⟨_, hm, rfl⟩) n (by simp) rfl
  · cases x with
    | nil =>
      simp at hx2
      have hin : (t, n, k) ∈ new := by rw [← hx2]; simp
      rw [List.append_nil] at hx1
      exact hnew _ hin _ (hx1 ▸ hm)
    | cons y x =>
      simp at hx2
      obtain ⟨rfl, _⟩ := hx2
      exact h a t n k x hx1 t' k' hm

/-- The beacons of any port, stack ports included, are at least the interval apart, whatever happens. -/
theorem beacon_rounds_spaced {shuffle : List BPort → List BPort} (hsh : ∀ l, (shuffle l).Perm l) (c : BCfg)
    (hc : 0 < c.sendInterval) (s : Beacons) (hnd : (s.ports.map BPort.number).Nodup) (ops : List BOp) :
    SpacedAll c.sendInterval (s.run shuffle c ops).2 := by
  have gen : ∀ (ops : List BOp) (s : Beacons) (log : List (Nat × Nat × Bool)), (s.ports.map BPort.number).Nodup →
      (∀ y ∈ log, y.1 ≤ s.lastRound) → SpacedAll c.sendInterval log →
      SpacedAll c.sendInterval (log ++ (s.run shuffle c ops).2) := by
    intro ops
    induction ops with
    | nil => intro s log _ _ hs; simpa [Beacons.run] using hs
    | cons op ops ih =>
      intro s log hn hlog hs
      cases op with
      | setRunning n up =>
        show SpacedAll _ (log ++ ([] ++ _))
        rw [← List.append_assoc]
        refine ih _ _ ?_ ?_ ?_
        · have : (s.ports.map (fun p => if p.number = n then { p with running := up } else p)).map BPort.number = s.ports.map BPort.number := by
            rw [List.map_map]
            apply List.map_congr_left
            intro p _
            simp only [Function.comp]
            split <;> rfl
          simp only [Beacons.step]
          rw [this]; exact hn
        · simpa [Beacons.step] using hlog
        · simpa using hs
      | tick now =>
        show SpacedAll _ (log ++ ((s.step shuffle c (.tick now)).2.map (fun p => (now, p.number, p.stack)) ++
          (Beacons.run shuffle c (s.step shuffle c (.tick now)).1 ops).2))
        rw [← List.append_assoc]
        by_cases hcond : c.sendInterval = 0 ∨ s.lastRound + c.sendInterval ≤ now
        · have hst : s.step shuffle c (.tick now) = (Beacons.mk (s.ports.map (noteSent (sendPorts shuffle s.ports c now) now)) now,
              sendPorts shuffle s.ports c now) := by simp only [Beacons.step]; rw [if_pos hcond]
          rw [hst]
          have hle : s.lastRound + c.sendInterval ≤ now := by omega
          refine ih _ _ ?_ ?_ ?_
          · have : (s.ports.map (noteSent (sendPorts shuffle s.ports c now) now)).map BPort.number = s.ports.map BPort.number := by
              rw [List.map_map]
              apply List.map_congr_left
              intro p _
              exact (noteSent_number _ now p).1
            rw [this]; exact hn
          · intro y hy
            show y.1 ≤ now
            rcases List.mem_append.1 hy with hy | hy
            · have := hlog y hy; omega
            · obtain ⟨p, _, rfl⟩ := List.mem_map.1 hy; exact Nat.le_refl _
          · refine spacedAll_append hs ?_ ?_
            · intro x hx y hy
              obtain ⟨p, _, rfl⟩ := List.mem_map.1 hx
              have := hlog y hy
              show y.1 + _ ≤ now
              omega
            · rw [List.map_map]
              exact (beacon_round shuffle hsh s.ports hn c now).2.2.2
        · have hst : s.step shuffle c (.tick now) = (s, []) := by simp only [Beacons.step]; rw [if_neg hcond]
          rw [hst]
          refine ih _ _ hn ?_ ?_
          · simpa using hlog
          · simpa using hs
  have := gen ops s [] hnd (by simp) (by intro a t n k b he; simp at he)
  simpa using this

/-- A beacon's time to live fits its 16-bit field. -/
theorem beacon_ttl_fits (i : Nat) : beaconTtl i < 2 ^ 16 := by
  unfold beaconTtl; omega

/-- A stack port and two others, one beacon per round for the others. -/
example : (Beacons.run id ⟨5, 1⟩ ⟨[⟨1, true, true, true, none⟩, ⟨2, false, true, true, none⟩, ⟨3, false, true, true, none⟩], 0⟩
    [.tick 5, .tick 7, .tick 10, .setRunning 3 false, .tick 16]).2 =
    [(5, 1, true), (5, 2, false), (10, 1, true), (10, 3, false), (16, 1, true), (16, 2, false)] := by decide

end Faucet.Service
