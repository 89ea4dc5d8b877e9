import Verif.Gauge.Props

/-!
# Gauge's requests, replies and switch status

The theorems about polling, for every history of Gauge.
-/

namespace Faucet.Gauge

/-! ## One poller -/

theorem count_threads {up seen ws} (hg : AllGood (fun _ => True) up seen ws) (dp : Nat) (k : Kind) :
    (ws.filter (fun w => w.thread.isSome && w.conf.dp == dp && w.conf.kind == k)).length =
      if (up dp).isSome = true ∧ k ≠ .portState ∧ (dp, k) ∉ seen ∧ ∃ c ∈ ws.map Watcher.conf, c.dp = dp ∧ c.kind = k
      then 1 else 0 := by
  induction ws generalizing seen with
  | nil => simp
  | cons w ws ih =>
    obtain ⟨h1, h2⟩ := hg
    have h1 := (h1 trivial).thread
    have ih := ih h2
    by_cases hw : w.conf.dp = dp ∧ w.conf.kind = k
    · obtain ⟨rfl, rfl⟩ := hw
      rw [if_neg (by simp)] at ih
      by_cases ht : w.thread.isSome = true
      · rw [List.filter_cons_of_pos (by simp [ht]), List.length_cons, ih]
        obtain ⟨ha, hb, hc⟩ := h1.1 ht
        rw [if_pos ⟨ha, hb, hc, _, by simp, rfl, rfl⟩]
      · rw [List.filter_cons_of_neg (by simp [ht]), ih, if_neg]
        rintro ⟨ha, hb, hc, -⟩
        exact ht (h1.2 ⟨ha, hb, hc⟩)
    · rw [List.filter_cons_of_neg (by simp; intro _ h; exact fun h' => hw ⟨h, h'⟩), ih]
      refine if_congr ?_ rfl rfl
      simp only [List.mem_cons, List.map_cons, Prod.mk.injEq]
      constructor
      · rintro ⟨ha, hb, hc, c, hd, he⟩
        exact ⟨ha, hb, fun h => hc (.inr h), c, .inr hd, he⟩
      · rintro ⟨ha, hb, hc, c, hd, he⟩
        refine ⟨ha, hb, ?_, c, ?_, he⟩
        · rintro (⟨h, h'⟩ | h)
          · exact hw ⟨h.symm, h'.symm⟩
          · exact hc h
        · rcases hd with rfl | hd
          · exact absurd he hw
          · exact hd

/-- **C67**: at any time exactly one thread polls a statistic of a switch if the switch is connected and the statistic
configured for it, and none otherwise: none is left over from connections that have ended or configurations that were
replaced, however often either happens. -/
theorem polled_once (es : List Event) (dp : Nat) (k : Kind) :
    (((run init es).ws ++ (run init es).old).filter
      (fun w => w.thread.isSome && w.conf.dp == dp && w.conf.kind == k)).length =
      if (linked es dp).isSome = true ∧ k ≠ .portState ∧ ∃ c ∈ configured es, c.dp = dp ∧ c.kind = k then 1 else 0 := by
  have h := inv_run es
  have h0 : (run init es).old.filter (fun w => w.thread.isSome && w.conf.dp == dp && w.conf.kind == k) = [] := by
    rw [List.filter_eq_nil_iff]
    intro w hw
    simp [h.gone w hw]
  rw [List.filter_append, h0, List.append_nil, count_threads h.good, h.up, h.conf]
  simp

/-! ## What is asked of whom -/

theorem filter_uid {l : List Watcher} (hn : (l.map Watcher.uid).Nodup) {w : Watcher} (hw : w ∈ l) :
    l.filter (fun x => x.uid == w.uid) = [w] := by
  induction l with
  | nil => cases hw
  | cons a l ih =>
    rw [List.map_cons, List.nodup_cons] at hn
    rcases List.mem_cons.1 hw with rfl | hw
    · rw [List.filter_cons_of_pos (by simp)]
      congr 1
      rw [List.filter_eq_nil_iff]
      intro x hx he
      exact hn.1 (List.mem_map.2 ⟨x, hx, by simpa using he⟩)
    · rw [List.filter_cons_of_neg, ih hn.2 hw]
      intro he
      exact hn.1 (List.mem_map.2 ⟨w, hw, (by simpa using he : a.uid = w.uid).symm⟩)

/-- What happens when a thread wakes is what happens to the one watcher that has it. -/
theorem wake_out {es s} (h : Inv es s) {w : Watcher} (hw : w ∈ s.ws) (t : Nat) :
    (s.step (.wake w.uid t)).2 = (w.wake t).2 := by
  have h1 := filter_uid h.uids (w := w) (by simp [hw])
  simp only [State.step, wakeIn_snd]
  rw [← List.flatMap_append, ← List.filter_append, h1]
  simp

theorem wake_asks (w : Watcher) (t : Nat) (c : Nat) (k : Kind) (h : .ask c k ∈ (w.wake t).2) :
    w.conn = some c ∧ k = w.conf.asks ∧ ∃ due sent, w.thread = some ⟨some due, sent⟩ ∧ due ≤ t := by
  unfold Watcher.wake at h
  split at h
  · rename_i due sent ht
    split at h
    · rename_i hd
      have h : .ask c k ∈ w.sends := by
        rcases List.mem_append.1 h with h | h
        · split at h <;> simp at h
        · exact h
      unfold Watcher.sends at h
      split at h
      · rename_i c' hc
        simp at h
        exact ⟨by rw [hc, h.1], h.2, due, sent, ht, hd⟩
      · simp at h
    · simp at h
  · simp at h

theorem leads_of {up seen ws} (hg : AllGood (fun _ => True) up seen ws) {w : Watcher} (hw : w ∈ ws)
    (ht : w.thread.isSome = true) : ∃ a b, ws.map Watcher.conf = a ++ w.conf :: b ∧
      (∀ x ∈ a, ¬ (x.dp = w.conf.dp ∧ x.kind = w.conf.kind)) ∧ w.conf.kind ≠ .portState ∧ (w.conf.dp, w.conf.kind) ∉ seen ∧
      ∃ c, up w.conf.dp = some c ∧ w.conn = some c ∧ w.running = true := by
  induction ws generalizing seen with
  | nil => cases hw
  | cons a ws ih =>
    obtain ⟨h1, h2⟩ := hg
    have h1 := h1 trivial
    rcases List.mem_cons.1 hw with rfl | hw
    · obtain ⟨hu, hk, hs⟩ := h1.thread.1 ht
      obtain ⟨c, hc⟩ := Option.isSome_iff_exists.1 hu
      exact ⟨[], ws.map Watcher.conf, rfl, nofun, hk, hs, c, hc, (h1.live c hc).2, (h1.live c hc).1⟩
    · obtain ⟨x, y, he, hx, hk, hs, hc⟩ := ih h2 hw
      refine ⟨a.conf :: x, y, by simp [he], ?_, hk, fun h => hs (by simp [h]), hc⟩
      intro z hz
      rcases List.mem_cons.1 hz with rfl | hz
      · rintro ⟨e1, e2⟩
        exact hs (by rw [← e1, ← e2]; simp)
      · exact hx z hz

/-- A request is sent only when a thread of the first watcher of its kind wakes. -/
theorem ask_source {es s} (h : Inv es s) {e : Event} {c : Nat} {k : Kind} (ha : .ask c k ∈ (s.step e).2) :
    ∃ w ∈ s.ws, ∃ t, e = .wake w.uid t ∧ .ask c k ∈ (w.wake t).2 := by
  cases e with
  | connect => simp [State.step] at ha
  | disconnect => simp [State.step] at ha
  | load cs => cases cs <;> simp [State.step] at ha
  | reply dp k' => simp [State.step, replyIn] at ha
  | wake uid t =>
    simp only [State.step, wakeIn_snd] at ha
    rcases List.mem_append.1 ha with ha | ha
    · obtain ⟨w, hw, ha⟩ := List.mem_flatMap.1 ha
      obtain ⟨hw, hu⟩ := List.mem_filter.1 hw
      have hu : w.uid = uid := by simpa using hu
      exact ⟨w, hw, t, by rw [hu], ha⟩
    · obtain ⟨w, hw, ha⟩ := List.mem_flatMap.1 ha
      obtain ⟨hw, _⟩ := List.mem_filter.1 hw
      obtain ⟨_, _, _, _, ht, _⟩ := wake_asks w t c k ha
      rw [h.gone w hw] at ht
      cases ht

/-- **C67**: every request goes out on the connection that the switch has at that time, and asks for a statistic that the
configuration in force has for that switch (or, for meters exported to Prometheus, for port statistics: see
`meters_never_asked_defect`). -/
theorem asks_what_is_wanted_partial (es : List Event) (e : Event) (c : Nat) (k : Kind)
    (ha : .ask c k ∈ ((run init es).step e).2) :
    ∃ w, Leads (configured es) w ∧ linked es w.dp = some c ∧ w.kind ≠ .portState ∧
      (k = w.kind ∨ (w.kind = .meterStats ∧ w.prom = true ∧ k = .portStats)) := by
  have h := inv_run es
  obtain ⟨w, hw, t, -, ha⟩ := ask_source h ha
  obtain ⟨hc, hk, due, sent, ht, -⟩ := wake_asks w t c k ha
  obtain ⟨a, b, he, hx, hp, -, c', hu, hc', -⟩ := leads_of h.good hw (by simp [ht])
  refine ⟨w.conf, ⟨a, b, by rw [← h.conf, he], hx⟩, ?_, hp, ?_⟩
  · rw [← h.up, hu, ← hc', hc]
  · rw [hk]
    unfold WConf.asks
    split
    · rename_i h1 h2; exact .inr ⟨h1, h2, rfl⟩
    · exact .inl rfl

/-! ## Pace -/

/-- What an event does to a watcher whose switch it does not start or stop. -/
def advance (w : Watcher) : Event → Watcher
  | .wake u n => wake1 u n w
  | .reply d k => reply1 d k w
  | _ => w

theorem mem_startAll {dp c n : Nat} {delay : Nat → Nat} {ks ws} {w : Watcher} (hw : w ∈ ws) (hd : w.conf.dp ≠ dp) :
    w ∈ startAll dp c n delay ks ws := by
  induction ws generalizing ks with
  | nil => cases hw
  | cons a ws ih =>
    unfold startAll
    rcases List.mem_cons.1 hw with rfl | hw
    · rw [if_neg hd]; simp
    · split
      · exact List.mem_cons_of_mem _ (ih hw)
      · exact List.mem_cons_of_mem _ (ih hw)

theorem advance_mem {s : State} {w : Watcher} (hw : w ∈ s.ws) {f : Event} (hf : ¬ Resets w.conf.dp f) :
    advance w f ∈ (s.step f).1.ws := by
  cases f with
  | connect d c n delay =>
    exact mem_startAll hw (fun h => hf (show d = w.conf.dp from h.symm))
  | disconnect d =>
    refine List.mem_map.2 ⟨w, hw, ?_⟩
    rw [if_neg (fun h => hf (by simp [Resets, h]))]
    rfl
  | wake u n => simp only [State.step, wakeIn_fst]; exact List.mem_map.2 ⟨w, hw, rfl⟩
  | reply d k => exact List.mem_map.2 ⟨w, hw, rfl⟩
  | load cs =>
    cases cs with
    | none => exact hw
    | some cs => exact absurd trivial hf

theorem advance_conf (w : Watcher) (f : Event) : (advance w f).conf = w.conf := by
  unfold advance; split
  · exact wake1_conf _ _ _
  · exact reply1_conf _ _ _
  · rfl

theorem advance_uid (w : Watcher) (f : Event) : (advance w f).uid = w.uid := by
  unfold advance; split
  · exact wake1_uid _ _ _
  · exact reply1_uid _ _ _
  · rfl

theorem reply1_running (dp : Nat) (k : Kind) (w : Watcher) : (reply1 dp k w).running = w.running := by
  unfold reply1; split
  · exact update_running _
  · rfl

theorem reply1_conn (dp : Nat) (k : Kind) (w : Watcher) : (reply1 dp k w).conn = w.conn := by
  unfold reply1; split
  · exact update_conn _
  · rfl

/-- Up to the time at which its thread is due, only replies make a difference to a watcher. -/
theorem advance_same {w : Watcher} {due : Nat} {sent : Bool} (ht : w.thread = some ⟨some due, sent⟩)
    (hr : w.running = true) {f : Event} (hn : NotYet w.uid due f) :
    advance w f = { w with pending := w.pending && !decide (IsReply w.conf.dp w.conf.kind f) } := by
  have hs : ∀ b : Bool, b = false → w = { w with pending := w.pending && !b } := by
    rintro _ rfl; simp
  cases f with
  | wake u n =>
    refine Eq.trans ?_ (hs _ (decide_eq_false (fun h => h)))
    simp only [advance, wake1]
    split
    · rename_i hu
      unfold Watcher.wake
      rw [ht]
      have : n < due := hn hu.symm
      simp only
      rw [if_neg (by omega)]
    · rfl
  | reply d k =>
    simp only [advance, reply1, Watcher.update]
    by_cases h : w.conf.dp = d ∧ w.conf.kind = k
    · rw [if_pos h, if_pos hr]; simp [IsReply, h]
    · rw [if_neg h]
      refine hs _ ?_
      refine decide_eq_false (fun hh => ?_)
      exact h ⟨hh.1.symm, hh.2.symm⟩
  | connect => exact hs _ (decide_eq_false (fun h => h))
  | disconnect => exact hs _ (decide_eq_false (fun h => h))
  | load => exact hs _ (decide_eq_false (fun h => h))

/-- A watcher over a stretch in which its switch is neither started nor stopped and its thread does not wake. -/
theorem stretch {es s} (h : Inv es s) {w : Watcher} (hw : w ∈ s.ws) {due : Nat} {sent : Bool}
    (ht : w.thread = some ⟨some due, sent⟩) (hr : w.running = true) (fs : List Event)
    (hf : ∀ f ∈ fs, ¬ Resets w.conf.dp f ∧ NotYet w.uid due f) :
    { w with pending := w.pending && !decide (∃ f ∈ fs, IsReply w.conf.dp w.conf.kind f) } ∈ (run s fs).ws ∧
      Inv (es ++ fs) (run s fs) := by
  induction fs generalizing es s w with
  | nil => simp only [List.append_nil]; exact ⟨by simpa [run] using hw, h⟩
  | cons f fs ih =>
    have h1 := advance_mem hw (hf f (by simp)).1
    rw [advance_same ht hr (hf f (by simp)).2] at h1
    have := ih (h.step f) h1 ht hr (fun g hg => hf g (by simp [hg]))
    rw [run_cons]
    refine ⟨?_, by simpa using this.2⟩
    have h3 := this.1
    simp only [List.mem_cons, exists_eq_or_imp, Bool.decide_or, Bool.not_or, ← Bool.and_assoc]
    exact h3

/-- What a due thread does. -/
theorem wake_due {w : Watcher} {due c : Nat} {sent : Bool} (ht : w.thread = some ⟨some due, sent⟩) (hc : w.conn = some c)
    (t : Nat) : (w.wake t).2 = if due ≤ t then
      (if sent = true ∧ w.pending = true then [.noResponse w.uid] else []) ++ [.ask c w.conf.asks] else [] := by
  unfold Watcher.wake
  rw [ht]
  simp only [Watcher.sends, hc]
  split
  · simp
  · rfl

/-- **C67**: when a request is sent at `t`, then as long as the switch stays connected and no other configuration is read,
the next is sent when the interval of the first watcher of the type has passed (or as soon as the thread is scheduled after
that) and not before, and "no response" is reported then if and only if no reply came in between. -/
theorem next_request (es : List Event) (uid t c : Nat) (k : Kind)
    (ha : .ask c k ∈ ((run init es).step (.wake uid t)).2) :
    ∃ w, Leads (configured es) w ∧ linked es w.dp = some c ∧ k = w.asks ∧
      ∀ fs, (∀ f ∈ fs, ¬ Resets w.dp f ∧ NotYet uid (t + w.interval) f) →
        ∀ t', ((run init (es ++ .wake uid t :: fs)).step (.wake uid t')).2 =
          if t + w.interval ≤ t' then
            (if ∃ f ∈ fs, IsReply w.dp w.kind f then [] else [.noResponse uid]) ++ [.ask c k]
          else [] := by
  have h := inv_run es
  obtain ⟨w, hw, t1, he, ha⟩ := ask_source h ha
  obtain ⟨rfl, rfl⟩ : uid = w.uid ∧ t = t1 := by simpa using he
  obtain ⟨hc, hk, due, sent, ht, hd⟩ := wake_asks w t c k ha
  obtain ⟨a, b, hab, hx, hp, -, c', hu, hc', hr⟩ := leads_of h.good hw (by simp [ht])
  refine ⟨w.conf, ⟨a, b, by rw [← h.conf, hab], hx⟩, by rw [← h.up, hu, ← hc', hc], hk, ?_⟩
  intro fs hf t'
  have h1 : wake1 w.uid t w ∈ ((run init es).step (.wake w.uid t)).1.ws :=
    advance_mem (f := .wake w.uid t) hw (by simp [Resets])
  have hw1 : wake1 w.uid t w = { w with pending := true, thread := some ⟨some (t + w.conf.interval), true⟩ } := by
    simp only [wake1, if_true, Watcher.wake, ht, hd]
  rw [hw1] at h1
  obtain ⟨h2, h3⟩ := stretch (h.step (.wake w.uid t)) h1 rfl hr fs hf
  rw [run_append, run_cons]
  have h4 := wake_out h3 h2 t'
  simp only at h4
  rw [h4]
  generalize hq : decide (∃ f ∈ fs, IsReply w.conf.dp w.conf.kind f) = q
  refine (wake_due (w := { w with pending := true && !q, thread := some ⟨some (t + w.conf.interval), true⟩ })
    (c := c) rfl hc t').trans ?_
  subst hq
  simp only [Bool.true_and, true_and]
  by_cases hq : ∃ f ∈ fs, IsReply w.conf.dp w.conf.kind f
  · simp [hq, hk]
  · simp [hq, hk]

theorem find_leader {up seen ws} (hg : AllGood (fun _ => True) up seen ws) {a b : List WConf} {c : WConf}
    (he : ws.map Watcher.conf = a ++ c :: b) (ha : ∀ x ∈ a, ¬ (x.dp = c.dp ∧ x.kind = c.kind)) (hs : (c.dp, c.kind) ∉ seen) :
    ∃ x y w, ws = x ++ w :: y ∧ w.conf = c ∧ ∃ seen', Good up seen' w ∧ (c.dp, c.kind) ∉ seen' := by
  induction ws generalizing seen a with
  | nil => simp at he
  | cons w ws ih =>
    obtain ⟨h1, h2⟩ := hg
    cases a with
    | nil =>
      simp at he
      exact ⟨[], ws, w, rfl, he.1, seen, h1 trivial, hs⟩
    | cons z a =>
      simp at he
      obtain ⟨x, y, w', hw', hc, hgd⟩ := ih h2 he.2 (fun q hq => ha q (by simp [hq])) (by
        simp only [List.mem_cons, Prod.mk.injEq]
        rintro (⟨e1, e2⟩ | h)
        · exact ha z (by simp) ⟨by rw [← he.1, e1], by rw [← he.1, e2]⟩
        · exact hs h)
      exact ⟨w :: x, y, w', by simp [hw'], hc, hgd⟩

/-- The event starts the polling of the switch at the time, if the switch is connected and configured. -/
def StartsAt (dp t : Nat) : Event → Prop
  | .connect d _ now _ => d = dp ∧ now = t
  | .load (some _) now _ => now = t
  | _ => False

/-- Threads that have not woken are due in the interval after they were started. -/
def Soon (dp t : Nat) (ws : List Watcher) : Prop :=
  ∀ w ∈ ws, w.conf.dp = dp → ∀ th, w.thread = some th → th.sent = false ∧
    (∀ due, th.due = some due → t + 1 ≤ due ∧ due ≤ t + w.conf.interval)

theorem start_soon {w : Watcher} {c n d : Nat} {a : Bool} (hs : w.conf.kind = .portState → w.thread = none) :
    ∀ th, (w.start c n d a).thread = some th → th.sent = false ∧
      (∀ due, th.due = some due → n + 1 ≤ due ∧ due ≤ n + (w.start c n d a).conf.interval) := by
  rw [start_conf]
  unfold Watcher.start
  split
  · intro th
    cases a
    · simp
    · simp only [↓reduceIte, Option.some.injEq]
      rintro rfl
      refine ⟨rfl, ?_⟩
      intro due hd
      simp only [firstWake] at hd
      split at hd
      · cases hd
      · rename_i hi
        have := Nat.mod_lt d (Nat.pos_of_ne_zero hi)
        simp at hd
        omega
  · rename_i hk
    rw [polls_iff] at hk
    have hk : w.conf.kind = .portState := by simpa using hk
    intro th ht
    simp [hs hk] at ht

theorem startAll_soon {dp c n : Nat} {delay : Nat → Nat} {ks ws} (hs : Still ws) : Soon dp n (startAll dp c n delay ks ws) := by
  induction ws generalizing ks with
  | nil => exact nofun
  | cons w ws ih =>
    have hs' : Still ws := fun x hx => hs x (by simp [hx])
    unfold startAll
    split
    · intro x hx
      rcases List.mem_cons.1 hx with rfl | hx
      · exact fun _ => start_soon (hs w (by simp))
      · exact ih hs' x hx
    · rename_i hd
      intro x hx
      rcases List.mem_cons.1 hx with rfl | hx
      · exact fun h => absurd h hd
      · exact ih hs' x hx

theorem startAll_soon_ne {dp d c n : Nat} {delay : Nat → Nat} {ks ws} (hs : Still ws) (hq : Soon d n ws) :
    Soon d n (startAll dp c n delay ks ws) := by
  induction ws generalizing ks with
  | nil => exact nofun
  | cons w ws ih =>
    have hs' : Still ws := fun x hx => hs x (by simp [hx])
    have hq' : Soon d n ws := fun x hx => hq x (by simp [hx])
    unfold startAll
    split
    · intro x hx
      rcases List.mem_cons.1 hx with rfl | hx
      · exact fun _ => start_soon (hs w (by simp))
      · exact ih hs' hq' x hx
    · intro x hx
      rcases List.mem_cons.1 hx with rfl | hx
      · exact hq _ (by simp)
      · exact ih hs' hq' x hx

theorem startUp_soon {up : Nat → Option Nat} {d n : Nat} {delay : Nat → Nat} {dps ws} (hs : Still ws) (hq : Soon d n ws) :
    Soon d n (startUp up n delay dps ws) := by
  induction dps generalizing ws with
  | nil => exact hq
  | cons dp dps ih =>
    unfold startUp; split
    · exact ih (startAll_still hs) (startAll_soon_ne hs hq)
    · exact ih hs hq

theorem fresh_soon (d n b : Nat) (cs : List WConf) : Soon d n (fresh b cs) := by
  induction cs generalizing b with
  | nil => exact nofun
  | cons c cs ih =>
    intro x hx
    rcases List.mem_cons.1 hx with rfl | hx
    · intro _ th h; cases h
    · exact ih _ x hx

theorem starts_soon {es s} (h : Inv es s) {dp t : Nat} {e : Event} (he : StartsAt dp t e) : Soon dp t (s.step e).1.ws := by
  cases e with
  | connect d c n delay =>
    obtain ⟨rfl, rfl⟩ := he
    exact startAll_soon h.still
  | load cs n delay =>
    cases cs with
    | none => cases he
    | some cs =>
      cases he
      exact startUp_soon (fresh_still _ _) (fresh_soon _ _ _ _)
  | disconnect => cases he
  | wake => cases he
  | reply => cases he

/-- **C67**: when a configured switch connects, or a configuration is read while a switch is connected, then each statistic
configured for the switch with an interval is asked for on that connection within the interval of its first watcher, if
meanwhile the switch stays connected and no other configuration is read. -/
theorem first_request (es : List Event) (e : Event) (w : WConf) (t c : Nat) (he : StartsAt w.dp t e)
    (hl : Leads (configured (es ++ [e])) w) (hc : linked (es ++ [e]) w.dp = some c) (hk : w.kind ≠ .portState)
    (hi : 0 < w.interval) :
    ∃ uid d, 1 ≤ d ∧ d ≤ w.interval ∧
      ∀ fs, (∀ f ∈ fs, ¬ Resets w.dp f ∧ NotYet uid (t + d) f) →
        ∀ t', ((run init (es ++ e :: fs)).step (.wake uid t')).2 = if t + d ≤ t' then [.ask c w.asks] else [] := by
  have h := (inv_run es).step e
  obtain ⟨a, b, hab, hx⟩ := hl
  rw [← h.conf] at hab
  obtain ⟨x, y, v, hv, rfl, seen, hg, hseen⟩ := find_leader h.good hab hx (by simp)
  have hvm : v ∈ ((run init es).step e).1.ws := by rw [hv]; simp
  have hup : ((run init es).step e).1.up v.conf.dp = some c := by rw [h.up]; exact hc
  have hth := hg.thread.2 ⟨by rw [hup]; rfl, hk, hseen⟩
  obtain ⟨hr, hcn⟩ := hg.live c hup
  obtain ⟨⟨dueo, sent⟩, hth⟩ := Option.isSome_iff_exists.1 hth
  have hsoon := starts_soon (inv_run es) he v hvm rfl _ hth
  cases dueo with
  | none =>
    have := (hg.due _ hth).1 rfl
    omega
  | some due =>
    obtain ⟨hs0, hs1⟩ := hsoon
    have hs1 := hs1 due rfl
    have hs0 : sent = false := hs0
    subst hs0
    refine ⟨v.uid, due - t, by omega, by omega, ?_⟩
    intro fs hf t'
    have hd : t + (due - t) = due := by omega
    rw [hd] at hf ⊢
    obtain ⟨h2, h3⟩ := stretch h hvm hth hr fs hf
    rw [run_append, run_cons]
    have h4 := wake_out h3 h2 t'
    simp only at h4
    rw [h4]
    generalize hq : decide (∃ f ∈ fs, IsReply v.conf.dp v.conf.kind f) = q
    refine (wake_due (w := { v with pending := v.pending && !q }) (c := c) hth hcn t').trans ?_
    simp

/-! ## Replies -/

/-- **C67**: a reply or notification of a connected switch is passed to every watcher that the configuration in force has for
the switch and the type, once to each. -/
theorem reply_recorded (es : List Event) (dp : Nat) (k : Kind) (c : Nat) (hc : linked es dp = some c) :
    ∃ us : List Nat, ((run init es).step (.reply dp k)).2 = us.map .record ∧ us.Nodup ∧
      us.length = ((configured es).filter (fun w => w.dp == dp && w.kind == k)).length := by
  have h := inv_run es
  refine ⟨((run init es).ws.filter (fun w => w.conf.dp == dp && w.conf.kind == k && w.running)).map Watcher.uid, ?_, ?_, ?_⟩
  · simp [State.step, replyIn]
  · have := h.uids
    rw [List.map_append] at this
    exact (List.nodup_append.1 this).1.sublist (List.filter_sublist.map _)
  · have hrun : ∀ {ws seen}, AllGood (fun _ => True) (run init es).up seen ws → ∀ w ∈ ws, w.conf.dp = dp →
        w.running = true := by
      intro ws
      induction ws with
      | nil => exact fun _ _ h => nomatch h
      | cons a ws ih =>
        intro seen hg w hw hd
        rcases List.mem_cons.1 hw with rfl | hw
        · exact ((hg.1 trivial).live c (by rw [h.up, hd, hc])).1
        · exact ih hg.2 w hw hd
    have h1 := hrun h.good
    rw [List.length_map, ← h.conf, List.filter_map, List.length_map]
    congr 1
    apply List.filter_congr
    intro w hw
    by_cases hd : w.conf.dp = dp
    · simp [h1 w hw hd]
    · simp [hd]

/-- **C67**: the watcher that polls a switch does not take part of a late reply for a reply to a later request: once the
switch is disconnected, nothing is passed to it.  (It is to other watchers: see `late_reply_recorded_defect`.) -/
theorem late_reply_dropped_partial (es : List Event) (dp : Nat) (k : Kind) (hc : linked es dp = none) (hk : k ≠ .portState)
    (h1 : ((configured es).filter (fun w => w.dp == dp && w.kind == k)).length ≤ 1) :
    ((run init es).step (.reply dp k)).2 = [] := by
  have h := inv_run es
  simp only [State.step, replyIn]
  rw [List.map_eq_nil_iff, List.filter_eq_nil_iff]
  intro w hw hq
  obtain ⟨⟨hd, hkk⟩, hr⟩ : (w.conf.dp = dp ∧ w.conf.kind = k) ∧ w.running = true := by simpa using hq
  obtain ⟨x, y, hxy⟩ := List.append_of_mem hw
  have hx : ∀ z ∈ x.map Watcher.conf, ¬ (z.dp = w.conf.dp ∧ z.kind = w.conf.kind) := by
    rintro z hz ⟨e1, e2⟩
    rw [← h.conf, hxy, List.map_append, List.filter_append, List.length_append] at h1
    have hp : 0 < ((x.map Watcher.conf).filter (fun w => w.dp == dp && w.kind == k)).length :=
      List.length_pos_of_mem (List.mem_filter.2 ⟨hz, by simp [e1, e2, hd, hkk]⟩)
    have hq : 0 < (((w :: y).map Watcher.conf).filter (fun w => w.dp == dp && w.kind == k)).length :=
      List.length_pos_of_mem (a := w.conf) (List.mem_filter.2 ⟨by simp, by simp [hd, hkk]⟩)
    omega
  have hgood : ∀ {ws seen}, AllGood (fun _ => True) (run init es).up seen ws → ∀ x w y, ws = x ++ w :: y →
      (∀ z ∈ x.map Watcher.conf, ¬ (z.dp = w.conf.dp ∧ z.kind = w.conf.kind)) → (w.conf.dp, w.conf.kind) ∉ seen →
      ∃ seen', Good (run init es).up seen' w ∧ (w.conf.dp, w.conf.kind) ∉ seen' := by
    intro ws
    induction ws with
    | nil => intro _ _ x w y he; simp at he
    | cons a ws ih =>
      intro seen hg x w y he hx hs
      cases x with
      | nil => simp at he; exact ⟨seen, by rw [← he.1]; exact hg.1 trivial, hs⟩
      | cons b x =>
        simp at he
        refine ih hg.2 x w y he.2 (fun z hz => hx z (by simp at hz ⊢; exact .inr hz)) ?_
        simp only [List.mem_cons, Prod.mk.injEq]
        rintro (⟨e1, e2⟩ | h)
        · exact hx a.conf (by simp [he.1]) ⟨e1.symm, e2.symm⟩
        · exact hs h
  obtain ⟨seen', hg, hs'⟩ := hgood h.good x w y hxy hx (by simp)
  have := hg.idle (by rw [h.up, hd, hc]) (by rw [hkk]; exact hk) hs'
  rw [hr] at this
  cases this

/-! ## Switch status -/

theorem reportDown_eq (ws : List Watcher) (st : Nat → Option Bool) (d : Nat) :
    reportDown ws st d = if ∃ c ∈ ws.map Watcher.conf, c.dp = d then some false else st d := by
  induction ws generalizing st with
  | nil => simp [reportDown]
  | cons w ws ih =>
    unfold reportDown
    rw [ih]
    by_cases h : ∃ c ∈ ws.map Watcher.conf, c.dp = d
    · rw [if_pos h, if_pos]
      obtain ⟨c, hc, hd⟩ := h
      exact ⟨c, by simp at hc ⊢; exact .inr hc, hd⟩
    · rw [if_neg h]
      by_cases hd : d = w.conf.dp
      · rw [if_pos hd, if_pos ⟨w.conf, by simp, hd.symm⟩]
      · rw [if_neg hd, if_neg]
        rintro ⟨c, hc, he⟩
        rcases List.mem_cons.1 hc with rfl | hc
        · exact hd he.symm
        · exact h ⟨c, hc, he⟩

theorem reportUp_eq (up : Nat → Option Nat) (dps : List Nat) (st : Nat → Option Bool) (d : Nat) :
    reportUp up dps st d = if d ∈ dps ∧ (up d).isSome = true then some true else st d := by
  induction dps generalizing st with
  | nil => simp [reportUp]
  | cons a dps ih =>
    unfold reportUp
    rw [ih]
    by_cases h : d ∈ dps ∧ (up d).isSome = true
    · rw [if_pos h, if_pos ⟨by simp [h.1], h.2⟩]
    · rw [if_neg h]
      by_cases hu : (up d).isSome = true
      · by_cases ha : d = a
        · subst ha; simp [hu]
        · have : d ∉ dps := fun hm => h ⟨hm, hu⟩
          simp only [List.mem_cons, ha, this, or_self, false_and, if_false]
          split <;> simp [ha]
      · have : ∀ b : Prop, ¬ (b ∧ (up d).isSome = true) := fun b hb => hu hb.2
        rw [if_neg (this _)]
        by_cases ha : d = a
        · subst ha; rw [if_neg hu]
        · split <;> simp [ha]

theorem report_eq (ws : List Watcher) (dp : Nat) (b : Bool) (st : Nat → Option Bool) (d : Nat) :
    report ws dp b st d = if d = dp ∧ ∃ c ∈ ws.map Watcher.conf, c.dp = d then some b else st d := by
  unfold report
  split
  · rename_i h
    obtain ⟨w, hw, hd⟩ := List.any_eq_true.1 h
    have hd : w.conf.dp = dp := by simpa using hd
    show (if d = dp then some b else st d) = _
    by_cases he : d = dp
    · rw [if_pos he, if_pos ⟨he, w.conf, List.mem_map.2 ⟨w, hw, rfl⟩, by rw [hd, he]⟩]
    · rw [if_neg he, if_neg (fun h => he h.1)]
  · rename_i h
    rw [if_neg]
    rintro ⟨rfl, c, hc, hd⟩
    obtain ⟨w, hw, rfl⟩ := List.mem_map.1 hc
    exact h (List.any_eq_true.2 ⟨w, hw, by simp [hd]⟩)

/-- **C67**: `dp_status` is 1 exactly for the switches that are connected and that the configuration in force has watchers
for. -/
theorem status_right (es : List Event) (dp : Nat) :
    (run init es).status dp = some true ↔ (linked es dp).isSome = true ∧ ∃ c ∈ configured es, c.dp = dp := by
  have key : ∀ (fs gs : List Event) (s : State), Inv gs s →
      (∀ dp, s.status dp = some true ↔ (linked gs dp).isSome = true ∧ ∃ c ∈ configured gs, c.dp = dp) →
      ∀ dp, (run s fs).status dp = some true ↔
        (linked (gs ++ fs) dp).isSome = true ∧ ∃ c ∈ configured (gs ++ fs), c.dp = dp := by
    intro fs
    induction fs with
    | nil => intro gs s _ h; simpa [run] using h
    | cons e fs ih =>
      intro gs s hi h dp
      rw [run_cons]
      have := ih (gs ++ [e]) _ (hi.step e) ?_ dp
      · simpa using this
      clear dp
      intro dp
      have h := h dp
      rw [configured_snoc, linked_snoc]
      cases e with
      | connect d c n delay =>
        simp only [State.step, report_eq, hi.conf]
        by_cases hd : d = dp
        · subst hd
          by_cases hx : ∃ c ∈ configured gs, c.dp = d
          · simp [hx]
          · simp only [hx, and_false, if_false, h]
        · have hd' : ¬ dp = d := fun h => hd h.symm
          simp only [hd, hd', false_and, if_false, h]
      | disconnect d =>
        simp only [State.step, report_eq, hi.conf]
        by_cases hd : d = dp
        · subst hd
          by_cases hx : ∃ c ∈ configured gs, c.dp = d
          · simp [hx]
          · simp only [hx, and_false, if_false, h]
        · have hd' : ¬ dp = d := fun h => hd h.symm
          simp only [hd, hd', false_and, if_false, h]
      | wake => exact h
      | reply => exact h
      | load cs n delay =>
        cases cs with
        | none => exact h
        | some cs =>
          simp only [State.step, State.load, reportUp_eq, reportDown_eq, hi.conf, hi.up]
          by_cases hx : ∃ c ∈ cs, c.dp = dp
          · have hm : dp ∈ dpsOf cs := by
              obtain ⟨c, hc, rfl⟩ := hx
              exact mem_dpsOf _ _ hc
            by_cases hu : (linked gs dp).isSome = true
            · simp [hm, hu, hx]
            · rw [if_neg (fun h => hu h.2)]
              simp only [hu, Bool.false_eq_true, false_and, iff_false]
              by_cases hy : ∃ c ∈ configured gs, c.dp = dp
              · simp [hy]
              · simp only [hy, if_false, h, and_false, not_false_eq_true]
          · have hm : dp ∉ dpsOf cs := fun hm => hx (dpsOf_mem _ _ hm)
            rw [if_neg (fun h => hm h.1)]
            simp only [hx, and_false, iff_false]
            by_cases hy : ∃ c ∈ configured gs, c.dp = dp
            · simp [hy]
            · simp only [hy, if_false, h, and_false, not_false_eq_true]
  have := key es [] init inv_init (by intro dp; simp [init, linked]) dp
  simpa using this

end Faucet.Gauge
