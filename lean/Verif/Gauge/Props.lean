import Verif.Gauge.Model
import Mathlib.Tactic.ByContra

/-!
# Gauge polls each statistic of each connected switch, once

Statements about all histories of Gauge from its start.  What is configured and what is connected are read off the
history by `configured` and `linked`, without the model's state.
-/

namespace Faucet.Gauge

/-! ## Specification -/

/-- The configuration in force after a history: the last valid one that was read. -/
def configured (es : List Event) : List WConf :=
  es.foldl (fun cs e => match e with
    | .load (some cs') _ _ => cs'
    | _ => cs) []

/-- The connection of a switch after a history. -/
def linked (es : List Event) (dp : Nat) : Option Nat :=
  es.foldl (fun c e => match e with
    | .connect d conn _ _ => if d = dp then some conn else c
    | .disconnect d => if d = dp then none else c
    | _ => c) none

/-- The watcher configuration `c` is the first for its switch and type. -/
def Leads (cs : List WConf) (c : WConf) : Prop :=
  ∃ a b, cs = a ++ c :: b ∧ ∀ x ∈ a, ¬ (x.dp = c.dp ∧ x.kind = c.kind)

/-- Events that end the polling of a switch, or start it anew. -/
def Resets (dp : Nat) : Event → Prop
  | .connect d _ _ _ => d = dp
  | .disconnect d => d = dp
  | .load (some _) _ _ => True
  | _ => False

/-- The event is a reply of the switch of the type. -/
def IsReply (dp : Nat) (k : Kind) : Event → Prop
  | .reply d k' => d = dp ∧ k' = k
  | _ => False

instance (dp k e) : Decidable (IsReply dp k e) := by unfold IsReply; split <;> infer_instance

/-- The event is the thread of a poller waking at some time before `t`, or none of its business. -/
def NotYet (uid t : Nat) : Event → Prop
  | .wake u now => u = uid → now < t
  | _ => True

/-! ## Basics -/

theorem run_append (s : State) (a b : List Event) : run s (a ++ b) = run (run s a) b := by simp [run]

theorem run_cons (s : State) (e : Event) (b : List Event) : run s (e :: b) = run (s.step e).1 b := by simp [run]

theorem configured_snoc (es : List Event) (e : Event) : configured (es ++ [e]) =
    (match e with
    | .load (some cs') _ _ => cs'
    | _ => configured es) := by
  simp [configured]

theorem linked_snoc (es : List Event) (e : Event) (dp : Nat) : linked (es ++ [e]) dp =
    (match e with
    | .connect d conn _ _ => if d = dp then some conn else linked es dp
    | .disconnect d => if d = dp then none else linked es dp
    | _ => linked es dp) := by
  simp [linked]

theorem start_conf (w : Watcher) (c n d : Nat) (a : Bool) : (w.start c n d a).conf = w.conf := by
  unfold Watcher.start; split <;> rfl

theorem start_uid (w : Watcher) (c n d : Nat) (a : Bool) : (w.start c n d a).uid = w.uid := by
  unfold Watcher.start; split <;> rfl

theorem stopActive_conf (w : Watcher) : w.stopActive.conf = w.conf := by unfold Watcher.stopActive; split <;> rfl

theorem stopActive_uid (w : Watcher) : w.stopActive.uid = w.uid := by unfold Watcher.stopActive; split <;> rfl

theorem stopActive_thread (w : Watcher) : w.stopActive.thread = none := by
  unfold Watcher.stopActive Watcher.isActive
  split
  · rfl
  · rename_i h; simpa using h

theorem wake_conf (w : Watcher) (n : Nat) : (w.wake n).1.conf = w.conf := by
  unfold Watcher.wake; split
  · split <;> rfl
  · rfl

theorem wake_uid (w : Watcher) (n : Nat) : (w.wake n).1.uid = w.uid := by
  unfold Watcher.wake; split
  · split <;> rfl
  · rfl

theorem wake_conn (w : Watcher) (n : Nat) : (w.wake n).1.conn = w.conn := by
  unfold Watcher.wake; split
  · split <;> rfl
  · rfl

theorem wake_running (w : Watcher) (n : Nat) : (w.wake n).1.running = w.running := by
  unfold Watcher.wake; split
  · split <;> rfl
  · rfl

theorem wake_thread (w : Watcher) (n : Nat) : (w.wake n).1.thread.isSome = w.thread.isSome := by
  unfold Watcher.wake; split
  · rename_i h; split <;> simp [h]
  · rfl

theorem update_conf (w : Watcher) : w.update.conf = w.conf := by unfold Watcher.update; split <;> rfl

theorem update_uid (w : Watcher) : w.update.uid = w.uid := by unfold Watcher.update; split <;> rfl

theorem update_conn (w : Watcher) : w.update.conn = w.conn := by unfold Watcher.update; split <;> rfl

theorem update_running (w : Watcher) : w.update.running = w.running := by unfold Watcher.update; split <;> rfl

theorem update_thread (w : Watcher) : w.update.thread = w.thread := by unfold Watcher.update; split <;> rfl

/-- `wakeIn` treats watchers one by one. -/
def wake1 (uid now : Nat) (w : Watcher) : Watcher := if w.uid = uid then (w.wake now).1 else w

theorem wakeIn_fst (uid now : Nat) (ws : List Watcher) : (wakeIn uid now ws).1 = ws.map (wake1 uid now) := by
  induction ws with
  | nil => rfl
  | cons w ws ih => unfold wakeIn; split <;> rename_i h <;> simp [ih, wake1, h]

theorem wakeIn_snd (uid now : Nat) (ws : List Watcher) :
    (wakeIn uid now ws).2 = (ws.filter (fun w => w.uid == uid)).flatMap (fun w => (w.wake now).2) := by
  induction ws with
  | nil => rfl
  | cons w ws ih => unfold wakeIn; split <;> rename_i h <;> simp [ih, h]

def stop1 (dp : Nat) (w : Watcher) : Watcher := if w.conf.dp = dp then w.stopActive else w

def reply1 (dp : Nat) (k : Kind) (w : Watcher) : Watcher := if w.conf.dp = dp ∧ w.conf.kind = k then w.update else w

/-! ## The invariant -/

/-- What holds of a watcher that comes after watchers for `seen`. -/
structure Good (up : Nat → Option Nat) (seen : List (Nat × Kind)) (w : Watcher) : Prop where
  thread : w.thread.isSome = true ↔ (up w.conf.dp).isSome = true ∧ w.conf.kind ≠ .portState ∧ (w.conf.dp, w.conf.kind) ∉ seen
  live : ∀ c, up w.conf.dp = some c → w.running = true ∧ w.conn = some c
  due : ∀ t, w.thread = some t → (t.due = none ↔ w.conf.interval = 0)
  idle : up w.conf.dp = none → w.conf.kind ≠ .portState → (w.conf.dp, w.conf.kind) ∉ seen → w.running = false

/-- All watchers of the switches in `D` are as they should be. -/
def AllGood (D : Nat → Prop) (up : Nat → Option Nat) : List (Nat × Kind) → List Watcher → Prop
  | _, [] => True
  | seen, w :: ws => (D w.conf.dp → Good up seen w) ∧ AllGood D up ((w.conf.dp, w.conf.kind) :: seen) ws

theorem AllGood.map {D : Nat → Prop} {up up' : Nat → Option Nat} {f : Watcher → Watcher} {seen ws}
    (hc : ∀ w, (f w).conf = w.conf)
    (h : ∀ seen w, (D w.conf.dp → Good up seen w) → D w.conf.dp → Good up' seen (f w)) (hg : AllGood D up seen ws) :
    AllGood D up' seen (ws.map f) := by
  induction ws generalizing seen with
  | nil => trivial
  | cons w ws ih =>
    obtain ⟨h1, h2⟩ := hg
    refine ⟨fun hd => ?_, ?_⟩
    · rw [hc] at hd; exact h seen w h1 hd
    · rw [hc]; exact ih h2

theorem AllGood.mono {D D' : Nat → Prop} {up seen ws} (hg : AllGood D up seen ws)
    (h : ∀ w ∈ ws, D' w.conf.dp → D w.conf.dp) : AllGood D' up seen ws := by
  induction ws generalizing seen with
  | nil => trivial
  | cons w ws ih =>
    exact ⟨fun hd => hg.1 (h w (by simp) hd), ih hg.2 (fun x hx => h x (by simp [hx]))⟩

theorem polls_iff (k : Kind) : k.polls = true ↔ k ≠ .portState := by cases k <;> simp [Kind.polls]

theorem firstWake_none (i n d : Nat) : firstWake i n d = none ↔ i = 0 := by unfold firstWake; split <;> simp_all

/-- Any watcher that is started is good. -/
theorem good_start {up : Nat → Option Nat} {seen} {w : Watcher} {c n d : Nat} {a : Bool}
    (hu : up w.conf.dp = some c) (ha : a = true ↔ (w.conf.dp, w.conf.kind) ∉ seen)
    (hp : w.conf.kind = .portState → w.thread = none) : Good up seen (w.start c n d a) := by
  have hc := start_conf w c n d a
  constructor
  · rw [hc, hu]
    unfold Watcher.start
    split
    · rename_i hk
      cases a
      · simp at ha; simp [ha]
      · simp at ha; simp [ha, (polls_iff _).1 hk]
    · rename_i hk
      rw [polls_iff] at hk
      have hk : w.conf.kind = .portState := by simpa using hk
      simp [hk, hp hk]
  · rw [hc, hu]
    intro c' hc'
    cases hc'
    unfold Watcher.start
    split <;> simp
  · rw [hc]
    unfold Watcher.start
    split
    · intro t
      cases a
      · simp
      · simp only [↓reduceIte, Option.some.injEq]
        rintro rfl
        exact firstWake_none _ _ _
    · rename_i hk
      rw [polls_iff] at hk
      have hk : w.conf.kind = .portState := by simpa using hk
      intro t ht
      simp [hp hk] at ht
  · rw [hc, hu]; exact nofun

/-- Port state pollers have no thread. -/
def Still (ws : List Watcher) : Prop := ∀ w ∈ ws, w.conf.kind = .portState → w.thread = none

theorem startAll_good {D D' : Nat → Prop} {up up' : Nat → Option Nat} {dp c n : Nat} {delay : Nat → Nat} {ks seen ws}
    (hk : ∀ k, k ∈ ks ↔ (dp, k) ∈ seen) (hs : Still ws) (hg : AllGood D up seen ws)
    (hup : up' dp = some c) (hup' : ∀ d, d ≠ dp → up' d = up d) (hD : ∀ d, D' d → d = dp ∨ D d) :
    AllGood D' up' seen (startAll dp c n delay ks ws) := by
  induction ws generalizing ks seen with
  | nil => trivial
  | cons w ws ih =>
    obtain ⟨h1, h2⟩ := hg
    unfold startAll
    split
    · rename_i hd
      refine ⟨fun _ => ?_, ?_⟩
      · refine good_start (by rw [hd, hup]) ?_ (hs w (by simp))
        rw [hd, ← hk]; simp
      · rw [start_conf, hd]
        refine ih ?_ (fun x hx => hs x (by simp [hx])) (by rw [hd] at h2; exact h2)
        intro k; simp [hk]
    · rename_i hd
      refine ⟨fun hD' => ?_, ?_⟩
      · rcases hD _ hD' with h | h
        · exact absurd h hd
        · have := h1 h
          exact ⟨by rw [hup' _ hd]; exact this.thread, by rw [hup' _ hd]; exact this.live, this.due,
            by rw [hup' _ hd]; exact this.idle⟩
      · refine ih ?_ (fun x hx => hs x (by simp [hx])) h2
        intro k
        rw [hk]
        simp only [List.mem_cons, Prod.mk.injEq]
        refine ⟨fun h => .inr h, ?_⟩
        rintro (⟨h, _⟩ | h)
        · exact absurd h.symm hd
        · exact h

theorem startAll_conf (dp c n : Nat) (delay : Nat → Nat) (ks ws) :
    (startAll dp c n delay ks ws).map Watcher.conf = ws.map Watcher.conf := by
  induction ws generalizing ks with
  | nil => rfl
  | cons w ws ih => unfold startAll; split <;> simp [ih, start_conf]

theorem startAll_uid (dp c n : Nat) (delay : Nat → Nat) (ks ws) :
    (startAll dp c n delay ks ws).map Watcher.uid = ws.map Watcher.uid := by
  induction ws generalizing ks with
  | nil => rfl
  | cons w ws ih => unfold startAll; split <;> simp [ih, start_uid]

theorem start_still {w : Watcher} (h : w.conf.kind = .portState → w.thread = none) (c n d : Nat) (a : Bool) :
    (w.start c n d a).conf.kind = .portState → (w.start c n d a).thread = none := by
  rw [start_conf]
  intro hk
  unfold Watcher.start
  rw [if_neg (by simp [hk, Kind.polls])]
  exact h hk

theorem startAll_still {dp c n : Nat} {delay : Nat → Nat} {ks ws} (hs : Still ws) :
    Still (startAll dp c n delay ks ws) := by
  induction ws generalizing ks with
  | nil => exact hs
  | cons w ws ih =>
    have ih' := @ih
    have hs' : Still ws := fun x hx => hs x (by simp [hx])
    unfold startAll
    split
    · intro x hx
      rcases List.mem_cons.1 hx with rfl | hx
      · exact start_still (hs w (by simp)) _ _ _ _
      · exact ih' hs' x hx
    · intro x hx
      rcases List.mem_cons.1 hx with rfl | hx
      · exact hs _ (by simp)
      · exact ih' hs' x hx

theorem startUp_conf (up : Nat → Option Nat) (n : Nat) (delay : Nat → Nat) (dps ws) :
    (startUp up n delay dps ws).map Watcher.conf = ws.map Watcher.conf := by
  induction dps generalizing ws with
  | nil => rfl
  | cons d dps ih => unfold startUp; split <;> simp [ih, startAll_conf]

theorem startUp_uid (up : Nat → Option Nat) (n : Nat) (delay : Nat → Nat) (dps ws) :
    (startUp up n delay dps ws).map Watcher.uid = ws.map Watcher.uid := by
  induction dps generalizing ws with
  | nil => rfl
  | cons d dps ih => unfold startUp; split <;> simp [ih, startAll_uid]

theorem startUp_still {up : Nat → Option Nat} {n : Nat} {delay : Nat → Nat} {dps ws} (hs : Still ws) :
    Still (startUp up n delay dps ws) := by
  induction dps generalizing ws with
  | nil => exact hs
  | cons d dps ih =>
    unfold startUp; split
    · exact ih (startAll_still hs)
    · exact ih hs

theorem startUp_good {D : Nat → Prop} {up : Nat → Option Nat} {n : Nat} {delay : Nat → Nat} {dps ws} (hs : Still ws)
    (hg : AllGood D up [] ws) (hD : ∀ d, up d = none → D d) :
    AllGood (fun d => D d ∨ d ∈ dps) up [] (startUp up n delay dps ws) := by
  induction dps generalizing ws D with
  | nil => simpa [startUp] using hg
  | cons dp dps ih =>
    unfold startUp; split
    · rename_i c hc
      have := ih (D := fun d => d = dp ∨ D d) (startAll_still (dp := dp) (c := c) (n := n) (delay := delay) (ks := []) hs)
        (startAll_good (D' := fun d => d = dp ∨ D d) (by simp) hs hg hc (fun _ _ => rfl) (fun _ h => h))
        (fun d h => .inr (hD d h))
      refine this.mono (fun w _ h => ?_)
      rcases h with h | h
      · exact .inl (.inr h)
      · rcases List.mem_cons.1 h with h | h
        · exact .inl (.inl h)
        · exact .inr h
    · rename_i hc
      refine (ih hs hg hD).mono (fun w _ h => ?_)
      rcases h with h | h
      · exact .inl h
      · rcases List.mem_cons.1 h with h | h
        · exact .inl (hD _ (h ▸ hc))
        · exact .inr h

theorem fresh_conf (b : Nat) (cs : List WConf) : (fresh b cs).map Watcher.conf = cs := by
  induction cs generalizing b with
  | nil => rfl
  | cons c cs ih => simp [fresh, ih]

theorem fresh_uid (b : Nat) (cs : List WConf) : (fresh b cs).map Watcher.uid = List.range' b cs.length := by
  induction cs generalizing b with
  | nil => rfl
  | cons c cs ih => simp [fresh, ih, List.range'_succ]

theorem fresh_still (b : Nat) (cs : List WConf) : Still (fresh b cs) := by
  induction cs generalizing b with
  | nil => exact nofun
  | cons c cs ih =>
    intro x hx
    rcases List.mem_cons.1 hx with rfl | hx
    · intro; rfl
    · exact ih _ x hx

theorem fresh_good (up : Nat → Option Nat) (b : Nat) (cs : List WConf) (seen) :
    AllGood (fun d => up d = none) up seen (fresh b cs) := by
  induction cs generalizing b seen with
  | nil => trivial
  | cons c cs ih =>
    refine ⟨fun h => ?_, ih _ _⟩
    simp only at h
    exact ⟨by simp [h], by simp [h], nofun, fun _ _ _ => rfl⟩

theorem mem_dpsOf (cs : List WConf) (c : WConf) (h : c ∈ cs) : c.dp ∈ dpsOf cs := by
  induction cs with
  | nil => cases h
  | cons a cs ih =>
    unfold dpsOf
    rcases List.mem_cons.1 h with rfl | h
    · simp
    · by_cases he : c.dp = a.dp
      · simp [he]
      · simp [he, ih h]

theorem dpsOf_mem (cs : List WConf) (d : Nat) (h : d ∈ dpsOf cs) : ∃ c ∈ cs, c.dp = d := by
  induction cs with
  | nil => cases h
  | cons a cs ih =>
    unfold dpsOf at h
    rcases List.mem_cons.1 h with rfl | h
    · exact ⟨a, by simp, rfl⟩
    · obtain ⟨c, hc, hd⟩ := ih (List.mem_filter.1 h).1
      exact ⟨c, by simp [hc], hd⟩

/-- The invariant. -/
structure Inv (es : List Event) (s : State) : Prop where
  conf : s.ws.map Watcher.conf = configured es
  up : s.up = linked es
  good : AllGood (fun _ => True) s.up [] s.ws
  still : Still s.ws
  gone : ∀ w ∈ s.old, w.thread = none
  uids : ((s.ws ++ s.old).map Watcher.uid).Nodup
  below : ∀ w ∈ s.ws ++ s.old, w.uid < s.ws.length + s.old.length

theorem map_fix {f : Watcher → Watcher} {α : Type} {g : Watcher → α} (h : ∀ w, g (f w) = g w) (ws : List Watcher) :
    (ws.map f).map g = ws.map g := by simp [Function.comp_def, h]

theorem linked_step (es : List Event) (e : Event) : linked (es ++ [e]) =
    (match e with
    | .connect d conn _ _ => setUp (linked es) d (some conn)
    | .disconnect d => setUp (linked es) d none
    | _ => linked es) := by
  funext dp
  rw [linked_snoc]
  cases e <;> simp [setUp, eq_comm]

theorem good_wake {up seen} {w : Watcher} (h : Good up seen w) (uid now : Nat) : Good up seen (wake1 uid now w) := by
  unfold wake1
  split
  · refine ⟨by rw [wake_thread, wake_conf]; exact h.thread, by rw [wake_conf, wake_conn, wake_running]; exact h.live, ?_,
      by rw [wake_conf, wake_running]; exact h.idle⟩
    rw [wake_conf]
    intro t
    have hd := h.due
    unfold Watcher.wake
    split
    · rename_i due sent ht
      have := hd _ ht
      split
      · simp only [Option.some.injEq]; rintro rfl
        simpa using this
      · rw [ht]; simp only [Option.some.injEq]; rintro rfl; exact this
    · exact hd t
  · exact h

theorem good_update {up seen} {w : Watcher} (h : Good up seen w) : Good up seen w.update :=
  ⟨by rw [update_thread, update_conf]; exact h.thread,
    by rw [update_conf, update_conn, update_running]; exact h.live,
    by rw [update_thread, update_conf]; exact h.due,
    by rw [update_conf, update_running]; exact h.idle⟩

theorem wake1_conf (uid now : Nat) (w : Watcher) : (wake1 uid now w).conf = w.conf := by
  unfold wake1; split
  · exact wake_conf _ _
  · rfl

theorem wake1_uid (uid now : Nat) (w : Watcher) : (wake1 uid now w).uid = w.uid := by
  unfold wake1; split
  · exact wake_uid _ _
  · rfl

theorem stop1_conf (dp : Nat) (w : Watcher) : (stop1 dp w).conf = w.conf := by
  unfold stop1; split
  · exact stopActive_conf _
  · rfl

theorem stop1_uid (dp : Nat) (w : Watcher) : (stop1 dp w).uid = w.uid := by
  unfold stop1; split
  · exact stopActive_uid _
  · rfl

theorem reply1_conf (dp : Nat) (k : Kind) (w : Watcher) : (reply1 dp k w).conf = w.conf := by
  unfold reply1; split
  · exact update_conf _
  · rfl

theorem reply1_uid (dp : Nat) (k : Kind) (w : Watcher) : (reply1 dp k w).uid = w.uid := by
  unfold reply1; split
  · exact update_uid _
  · rfl

theorem Still.map {f : Watcher → Watcher} {ws : List Watcher} (h : Still ws) (hc : ∀ w, (f w).conf = w.conf)
    (ht : ∀ w, w.thread = none → (f w).thread = none) : Still (ws.map f) := by
  intro x hx
  obtain ⟨w, hw, rfl⟩ := List.mem_map.1 hx
  rw [hc]
  exact fun hk => ht w (h w hw hk)

theorem wake1_none (uid now : Nat) (w : Watcher) (h : w.thread = none) : wake1 uid now w = w := by
  unfold wake1
  split
  · simp [Watcher.wake, h]
  · rfl

theorem stop1_none (dp : Nat) (w : Watcher) (h : w.thread = none) : (stop1 dp w).thread = none := by
  unfold stop1
  split
  · exact stopActive_thread _
  · exact h

theorem reply1_thread (dp : Nat) (k : Kind) (w : Watcher) : (reply1 dp k w).thread = w.thread := by
  unfold reply1; split
  · exact update_thread _
  · rfl

/-- Watchers keep their numbers. -/
theorem below_map {f g : Watcher → Watcher} {ws old : List Watcher} (hf : ∀ w, (f w).uid = w.uid)
    (hg : ∀ w, (g w).uid = w.uid) (h : ∀ w ∈ ws ++ old, w.uid < ws.length + old.length) :
    ∀ w ∈ ws.map f ++ old.map g, w.uid < (ws.map f).length + (old.map g).length := by
  intro x hx
  simp only [List.length_map]
  rcases List.mem_append.1 hx with hx | hx
  · obtain ⟨w, hw, rfl⟩ := List.mem_map.1 hx
    rw [hf]; exact h w (by simp [hw])
  · obtain ⟨w, hw, rfl⟩ := List.mem_map.1 hx
    rw [hg]; exact h w (by simp [hw])

theorem nodup_map {f g : Watcher → Watcher} {ws old : List Watcher} (hf : ∀ w, (f w).uid = w.uid)
    (hg : ∀ w, (g w).uid = w.uid) (h : ((ws ++ old).map Watcher.uid).Nodup) :
    ((ws.map f ++ old.map g).map Watcher.uid).Nodup := by
  rw [List.map_append, map_fix hf, map_fix hg, ← List.map_append]; exact h

theorem below_uids {ws ws' old : List Watcher} (hu : ws'.map Watcher.uid = ws.map Watcher.uid)
    (h : ∀ w ∈ ws ++ old, w.uid < ws.length + old.length) : ∀ w ∈ ws' ++ old, w.uid < ws'.length + old.length := by
  have hl : ws'.length = ws.length := by simpa using congrArg List.length hu
  intro x hx
  rw [hl]
  rcases List.mem_append.1 hx with hx | hx
  · have : x.uid ∈ ws'.map Watcher.uid := List.mem_map.2 ⟨x, hx, rfl⟩
    rw [hu] at this
    obtain ⟨w, hw, he⟩ := List.mem_map.1 this
    rw [← he]; exact h w (by simp [hw])
  · exact h x (by simp [hx])

theorem Inv.step {es : List Event} {s : State} (h : Inv es s) (e : Event) : Inv (es ++ [e]) (s.step e).1 := by
  cases e with
  | connect dp conn now delay =>
    refine ⟨?_, ?_, ?_, ?_, h.gone, ?_, ?_⟩
    · rw [configured_snoc]; simp only [State.step, startAll_conf]; exact h.conf
    · rw [linked_step]; simp only [State.step, h.up]
    · simp only [State.step]
      exact startAll_good (by simp) h.still h.good (by simp [setUp]) (fun d hd => by simp [setUp, hd]) (fun _ _ => .inr trivial)
    · exact startAll_still h.still
    · simp only [State.step, List.map_append, startAll_uid]; rw [← List.map_append]; exact h.uids
    · exact below_uids (startAll_uid _ _ _ _ _ _) h.below
  | disconnect dp =>
    have hm : stopAll dp s.ws = s.ws.map (stop1 dp) := rfl
    refine ⟨?_, ?_, ?_, ?_, h.gone, ?_, ?_⟩
    · rw [configured_snoc]; simp only [State.step, hm, map_fix (stop1_conf dp)]; exact h.conf
    · rw [linked_step]; simp only [State.step, h.up]
    · simp only [State.step, hm]
      refine h.good.map (stop1_conf dp) ?_
      intro seen w hw _
      have hw := hw trivial
      unfold stop1
      split
      · rename_i hd
        refine ⟨?_, ?_, ?_, ?_⟩
        · rw [stopActive_thread, stopActive_conf, hd]; simp [setUp]
        · rw [stopActive_conf, hd]; simp [setUp]
        · rw [stopActive_thread]; exact nofun
        · rw [stopActive_conf]
          intro _ hk hs
          have h1 := hw.thread
          unfold Watcher.stopActive Watcher.isActive
          by_cases ht : w.thread.isSome = true
          · rw [if_pos ht]; rfl
          · rw [if_neg ht]
            refine hw.idle ?_ hk hs
            by_contra hn
            exact ht (h1.2 ⟨by simpa [Option.isSome_iff_ne_none] using hn, hk, hs⟩)
      · rename_i hd
        exact ⟨by simp only [setUp, hd, if_false]; exact hw.thread, by simp only [setUp, hd, if_false]; exact hw.live, hw.due,
          by simp only [setUp, hd, if_false]; exact hw.idle⟩
    · exact h.still.map (stop1_conf dp) (stop1_none dp)
    · have := nodup_map (stop1_uid dp) (g := id) (fun _ => rfl) h.uids
      simpa [State.step, hm] using this
    · have := below_map (stop1_uid dp) (g := id) (fun _ => rfl) h.below
      simpa [State.step, hm] using this
  | wake uid now =>
    have ho : s.old.map (wake1 uid now) = s.old := by
      have := List.map_congr_left (g := id) (fun w hw => wake1_none uid now w (h.gone w hw))
      rw [this, List.map_id]
    refine ⟨?_, ?_, ?_, ?_, ?_, ?_, ?_⟩
    · rw [configured_snoc]; simp only [State.step, wakeIn_fst, map_fix (wake1_conf uid now)]; exact h.conf
    · rw [linked_step]; exact h.up
    · simp only [State.step, wakeIn_fst]
      exact h.good.map (wake1_conf uid now) (fun seen w hw hd => good_wake (hw hd) _ _)
    · simp only [State.step, wakeIn_fst]
      exact h.still.map (wake1_conf uid now) (fun w hw => by rw [wake1_none _ _ _ hw]; exact hw)
    · simp only [State.step, wakeIn_fst, ho]; exact h.gone
    · simp only [State.step, wakeIn_fst]
      exact nodup_map (wake1_uid uid now) (wake1_uid uid now) h.uids
    · simp only [State.step, wakeIn_fst]
      exact below_map (wake1_uid uid now) (wake1_uid uid now) h.below
  | reply dp k =>
    have hm : (replyIn dp k s.ws).1 = s.ws.map (reply1 dp k) := rfl
    refine ⟨?_, ?_, ?_, ?_, h.gone, ?_, ?_⟩
    · rw [configured_snoc]; simp only [State.step, hm, map_fix (reply1_conf dp k)]; exact h.conf
    · rw [linked_step]; exact h.up
    · simp only [State.step, hm]
      refine h.good.map (reply1_conf dp k) (fun seen w hw hd => ?_)
      unfold reply1
      split
      · exact good_update (hw hd)
      · exact hw hd
    · exact h.still.map (reply1_conf dp k) (fun w hw => (reply1_thread dp k w).trans hw)
    · have := nodup_map (reply1_uid dp k) (g := id) (fun _ => rfl) h.uids
      simpa [State.step, hm] using this
    · have := below_map (reply1_uid dp k) (g := id) (fun _ => rfl) h.below
      simpa [State.step, hm] using this
  | load cs now delay =>
    cases cs with
    | none =>
      refine ⟨?_, ?_, h.good, h.still, h.gone, h.uids, h.below⟩
      · rw [configured_snoc]; exact h.conf
      · rw [linked_step]; exact h.up
    | some cs =>
      have hc : (s.load cs now delay).ws.map Watcher.conf = cs := by simp only [State.load, startUp_conf, fresh_conf]
      have hu : (s.load cs now delay).ws.map Watcher.uid = List.range' (s.ws.length + s.old.length) cs.length := by
        simp only [State.load, startUp_uid, fresh_uid]
      have hl : (s.load cs now delay).ws.length = cs.length := by simpa using congrArg List.length hc
      have hold : (s.load cs now delay).old.map Watcher.uid = s.old.map Watcher.uid ++ s.ws.map Watcher.uid := by
        simp only [State.load, List.map_append, map_fix stopActive_uid]
      have hlo : (s.load cs now delay).old.length = s.ws.length + s.old.length := by
        simp [State.load, Nat.add_comm]
      have hlt : ∀ u ∈ (s.load cs now delay).old.map Watcher.uid, u < s.ws.length + s.old.length := by
        rw [hold]
        intro u hu
        rcases List.mem_append.1 hu with hu | hu
        all_goals
          obtain ⟨w, hw, rfl⟩ := List.mem_map.1 hu
          exact h.below w (by simp [hw])
      refine ⟨?_, ?_, ?_, ?_, ?_, ?_, ?_⟩
      · rw [configured_snoc]; exact hc
      · rw [linked_step]; exact h.up
      · refine (startUp_good (fresh_still _ _) (fresh_good _ _ _ _) (fun _ h => h)).mono ?_
        intro w hw _
        refine .inr (mem_dpsOf _ _ ?_)
        rw [← hc]; exact List.mem_map.2 ⟨w, hw, rfl⟩
      · exact startUp_still (fresh_still _ _)
      · intro w hw
        rcases List.mem_append.1 hw with hw | hw
        · exact h.gone w hw
        · obtain ⟨w', _, rfl⟩ := List.mem_map.1 hw
          exact stopActive_thread _
      · rw [List.map_append, List.nodup_append]
        refine ⟨?_, ?_, ?_⟩
        · simp only [State.step]; rw [hu]; exact List.nodup_range'
        · simp only [State.step]; rw [hold]
          have := h.uids
          rw [List.map_append] at this
          exact (List.perm_append_comm.nodup_iff).1 this
        · intro u hu1 v hv
          simp only [State.step] at hu1 hv
          rw [hu] at hu1
          have h1 := (List.mem_range'_1.1 hu1).1
          have h2 := hlt v hv
          omega
      · intro w hw
        simp only [State.step] at hw ⊢
        rw [hl, hlo]
        rcases List.mem_append.1 hw with hw | hw
        · have : w.uid ∈ (s.load cs now delay).ws.map Watcher.uid := List.mem_map.2 ⟨w, hw, rfl⟩
          rw [hu] at this
          have := (List.mem_range'_1.1 this).2
          omega
        · have := hlt w.uid (List.mem_map.2 ⟨w, hw, rfl⟩)
          omega

theorem inv_init : Inv [] init :=
  ⟨rfl, rfl, trivial, nofun, nofun, by simp [init], nofun⟩

theorem inv_run (es : List Event) : Inv es (run init es) := by
  have h : ∀ (fs : List Event) (gs : List Event) (s : State), Inv gs s → Inv (gs ++ fs) (run s fs) := by
    intro fs
    induction fs with
    | nil => intro gs s h; simpa [run] using h
    | cons e fs ih =>
      intro gs s h
      rw [run_cons]
      have := ih (gs ++ [e]) _ (h.step e)
      simpa using this
  simpa using h es [] init inv_init

end Faucet.Gauge
