import Verif.Route.Rib

/-!
# C18 and C19: when and for which gateways the resolver asks
-/

namespace Faucet.Route
open Faucet

/-! ## C18: one next hop -/

/-- A next hop created at some time, and the attempts to resolve it since, newest first, as (time, jitter). Each attempt
happens when one is due; the jitter of the `k`-th attempt is at most `k` (`random.randint`). -/
inductive Attempts (maxAge maxBackoff : Int) (eth port : Option Nat) (born : Int) : NextHop → List (Int × Nat) → Prop
  | new : Attempts maxAge maxBackoff eth port born (NextHop.new eth port born) []
  | retry {n tries now j} : Attempts maxAge maxBackoff eth port born n tries → n.due now maxAge = true →
      j ≤ tries.length + 1 → Attempts maxAge maxBackoff eth port born (n.nextRetry now maxBackoff j) ((now, j) :: tries)

/-- The next hop has a MAC that is not older than the neighbour timeout. -/
def Fresh (eth : Option Nat) (born now maxAge : Int) : Prop := eth ≠ none ∧ now - born < maxAge

theorem attempts_fields {maxAge maxBackoff : Int} {eth port : Option Nat} {born : Int} {n : NextHop} {tries : List (Int × Nat)}
    (h : Attempts maxAge maxBackoff eth port born n tries) : n.eth = eth ∧ n.port = port ∧ n.cacheTime = born ∧
      n.retries = tries.length ∧ n.last = tries.head?.map (·.1) ∧
      n.next = (match tries with
        | [] => if eth = none then some born else none
        | (t, j) :: _ => some (t + min ((2 : Int) ^ tries.length + j) maxBackoff)) := by
  induction h with
  | new => exact ⟨rfl, rfl, rfl, rfl, rfl, rfl⟩
  | retry h _ _ ih =>
    obtain ⟨h1, h2, h3, h4, h5, h6⟩ := ih
    refine ⟨h1, h2, h3, ?_, rfl, ?_⟩
    · simp [NextHop.nextRetry, h4]
    · simp [NextHop.nextRetry, h4]

theorem due_iff {n : NextHop} {now maxAge : Int} : n.due now maxAge = true ↔
    ¬ Fresh n.eth n.cacheTime now maxAge ∧ ∀ t, n.next = some t → t < now := by
  have h2 : n.retryDue now = true ↔ ∀ t, n.next = some t → t < now := by
    unfold NextHop.retryDue
    cases n.next <;> simp
  unfold NextHop.due Fresh NextHop.age
  rw [← h2]
  by_cases hc : (n.eth.isSome && decide (now - n.cacheTime < maxAge)) = true
  · rw [if_pos hc]
    simp only [Bool.and_eq_true, decide_eq_true_eq, Option.isSome_iff_ne_none] at hc
    simp [hc.1, hc.2]
  · rw [if_neg hc]
    simp only [Bool.and_eq_true, decide_eq_true_eq, Option.isSome_iff_ne_none] at hc
    simp only [not_and] at hc ⊢
    constructor
    · intro h; exact ⟨hc, h⟩
    · exact And.right

/-- C18, first part. After `k > 0` attempts, the last at time `t`, the next attempt is due exactly when the next hop is
not fresh and more than `min (2^k + j) maxBackoff` has passed since, for the jitter `0 ≤ j ≤ k`: no sooner than
`min (2^k) maxBackoff`, and always once `maxBackoff` has passed. -/
theorem retry_backoff {maxAge maxBackoff : Int} {eth port : Option Nat} {born : Int} {n : NextHop} {t : Int} {j : Nat}
    {tries : List (Int × Nat)} (h : Attempts maxAge maxBackoff eth port born n ((t, j) :: tries)) (now : Int) :
    (n.due now maxAge = true ↔
      ¬ Fresh eth born now maxAge ∧ t + min ((2 : Int) ^ (tries.length + 1) + j) maxBackoff < now) ∧
    j ≤ tries.length + 1 ∧
    (n.due now maxAge = true → t + min ((2 : Int) ^ (tries.length + 1)) maxBackoff < now) ∧
    (¬ Fresh eth born now maxAge → t + maxBackoff < now → n.due now maxAge = true) := by
  obtain ⟨h1, _, h3, _, _, h6⟩ := attempts_fields h
  have hj : j ≤ tries.length + 1 := by cases h; assumption
  have hd : n.due now maxAge = true ↔
      ¬ Fresh eth born now maxAge ∧ t + min ((2 : Int) ^ (tries.length + 1) + j) maxBackoff < now := by
    rw [due_iff, h1, h3, h6]
    simp
  refine ⟨hd, hj, ?_, ?_⟩
  · intro h
    have := (hd.1 h).2
    omega
  · intro hf hb
    refine hd.2 ⟨hf, ?_⟩
    omega

theorem two_pow_gt (k : Nat) : (k : Int) + 1 ≤ 2 ^ k := by
  induction k with
  | zero => simp
  | succ k ih => rw [Int.pow_succ]; omega

/-- C18, second part. Of three successive attempts, the second wait is at least as long as the first: what the retry had to
wait for never shrinks. -/
theorem backoff_grows {maxAge maxBackoff : Int} {eth port : Option Nat} {born : Int} {n : NextHop} {t t' : Int} {j j' : Nat}
    {tries : List (Int × Nat)} (h : Attempts maxAge maxBackoff eth port born n ((t', j') :: (t, j) :: tries)) :
    min ((2 : Int) ^ (tries.length + 1) + j) maxBackoff ≤ min ((2 : Int) ^ (tries.length + 2) + j') maxBackoff ∧
    t + min ((2 : Int) ^ (tries.length + 1) + j) maxBackoff < t' := by
  cases h with
  | retry h hd hj =>
    obtain ⟨h1, h2, h3, h4⟩ := retry_backoff h t'
    refine ⟨?_, (h1.1 hd).2⟩
    have e : (2 : Int) ^ (tries.length + 2) = 2 ^ (tries.length + 1) * 2 := Int.pow_succ _ _
    have := two_pow_gt (tries.length + 1)
    omega

/-- C18, third part. A fresh next hop is never asked for again; a next hop is dead exactly when it has been tried as often
as the limit says since its MAC was last learnt. -/
theorem fresh_and_dead {maxAge maxBackoff : Int} {eth port : Option Nat} {born : Int} {n : NextHop}
    {tries : List (Int × Nat)} (h : Attempts maxAge maxBackoff eth port born n tries) :
    (∀ now, Fresh eth born now maxAge → n.due now maxAge = false) ∧
    (∀ limit, n.dead limit = true ↔ limit ≤ tries.length) := by
  obtain ⟨h1, _, h3, h4, _, _⟩ := attempts_fields h
  refine ⟨?_, ?_⟩
  · intro now hf
    cases hd : n.due now maxAge with
    | false => rfl
    | true => exact absurd hf (h1 ▸ h3 ▸ (due_iff.1 hd).1)
  · intro limit
    simp [NextHop.dead, h4]

/-- A gateway that never answers: attempts at 1, 4, and 10 seconds. -/
example : ∃ n, Attempts 30 64 none none 0 n [(10, 3), (4, 1), (1, 0)] :=
  ⟨_, .retry (.retry (.retry .new (by decide) (by decide)) (by decide) (by decide)) (by decide) (by decide)⟩

/-- The time of a gateway that has just become unknown must pass before it is first asked for. -/
example : (NextHop.new none none 7).due 7 30 = false ∧ (NextHop.new none none 7).due 8 30 = true := by decide

/-! ## C19: one cycle -/

theorem upd_self (st : St) (vid : Nat) (s : VState) : (st.upd vid s) vid = s := by simp [St.upd]
theorem upd_ne (st : St) {vid k : Nat} (s : VState) (h : k ≠ vid) : (st.upd vid s) k = st k := by simp [St.upd, h]

theorem delRoute_cache {w : Nat} {s s' : VState} {dst : Net} (h : s.delRoute w dst = some s') : s'.cache = s.cache := by
  obtain ⟨gw, _, rfl⟩ := delRoute_some h
  rw [updateGwTypes_cache]; rfl

theorem mgr_delRoute_cache (m : Mgr) (st : St) (v : Vlan) (dst : Net) (k : Nat) :
    ((m.delRoute st v dst).1 k).cache = (st k).cache := by
  unfold Mgr.delRoute
  split
  · rfl
  · cases h : (st v.vid).delRoute m.width dst with
    | none => rfl
    | some s =>
      simp only
      by_cases hk : k = v.vid
      · subst hk; rw [upd_self]; exact delRoute_cache h
      · rw [upd_ne _ _ hk]

/-- What the handler of one gateway does to the cache: other gateways keep their entries. -/
theorem handler_other (m : Mgr) (hosts : Bool) (e : Env) (st : St) (now : Int) (v : Vlan) (gw : Nat) (n : NextHop) (g : Nat)
    (h : g ≠ gw) : ((m.handler hosts e st now v gw n).1 v.vid).cache.get? g = (st v.vid).cache.get? g := by
  have hr : ∀ st' : St, ((m.resolveGw e st' now v gw n).1 v.vid).cache.get? g = (st' v.vid).cache.get? g := by
    intro st'
    unfold Mgr.resolveGw
    split
    · simp only [upd_self, VState.setHop]
      rw [Dict.get?_set_ne _ _ (Ne.symm h)]
    · rfl
  have he : ((m.expireGw st v gw n).1 v.vid).cache.get? g = (st v.vid).cache.get? g := by
    unfold Mgr.expireGw
    simp only [mgr_delRoute_cache, upd_self, VState.delHop]
    rw [Dict.get?_del]
    simp [h, Ne.symm h]
  unfold Mgr.handler
  cases hosts
  · exact hr st
  · simp only [if_true, Mgr.resolveExpire]
    split
    · exact he
    · exact hr st

/-- Messages about gateways asked for. -/
theorem handler_asks {m : Mgr} {hosts : Bool} {e : Env} {st : St} {now : Int} {v : Vlan} {gw : Nat} {n : NextHop} {vid g : Nat}
    (h : RMsg.ask vid g ∈ (m.handler hosts e st now v gw n).2) : g = gw ∧ vid = v.vid := by
  have hr : RMsg.ask vid g ∈ (m.resolveGw e st now v gw n).2 → g = gw ∧ vid = v.vid := by
    unfold Mgr.resolveGw Mgr.asks
    intro h
    split at h
    · simp only at h
      split at h
      · simp at h; exact ⟨h.2, h.1⟩
      · have := List.eq_of_mem_replicate h; injection this with h1 h2; exact ⟨h2, h1⟩
    · simp at h
  have he : RMsg.ask vid g ∉ (m.expireGw st v gw n).2 := by
    unfold Mgr.expireGw Mgr.delRoute
    intro h
    simp only at h
    split at h
    · cases h
    · split at h
      · cases h
      · split at h
        · cases h
        · simp at h
  unfold Mgr.handler at h
  cases hosts
  · exact hr h
  · simp only [if_true, Mgr.resolveExpire] at h
    split at h
    · exact absurd h he
    · exact hr h

/-- The gateway has been dealt with: tried once more, or expired, or it is in no connected network. -/
def Handled (m : Mgr) (v : Vlan) (before after : VState) (g : Nat) : Prop :=
  v.vipMap m.width g = none ∨ after.cache.get? g = none ∨
    ∃ n n', before.cache.get? g = some n ∧ after.cache.get? g = some n' ∧ n'.retries = n.retries + 1

theorem handler_handled (m : Mgr) (hosts : Bool) (e : Env) (st : St) (now : Int) (v : Vlan) (gw : Nat) (n : NextHop)
    (h : (st v.vid).cache.get? gw = some n) : Handled m v (st v.vid) ((m.handler hosts e st now v gw n).1 v.vid) gw := by
  have hr : Handled m v (st v.vid) ((m.resolveGw e st now v gw n).1 v.vid) gw := by
    unfold Mgr.resolveGw
    split
    · refine Or.inr (Or.inr ⟨n, n.nextRetry now m.maxBackoff (e.jitter gw), h, ?_, ?_⟩)
      · simp [upd_self, VState.setHop]
      · rfl
    · rename_i hv
      left
      simpa using hv
  have he : Handled m v (st v.vid) ((m.expireGw st v gw n).1 v.vid) gw := by
    right; left
    unfold Mgr.expireGw
    simp only [mgr_delRoute_cache, upd_self, VState.delHop]
    rw [Dict.get?_del]
    simp
  unfold Mgr.handler
  cases hosts
  · exact hr
  · simp only [if_true, Mgr.resolveExpire]
    split
    · exact he
    · exact hr

theorem loop_cons (m : Mgr) (e : Env) (hosts : Bool) (now : Int) (v : Vlan) (gw : Nat) (gws : List Nat) (r : Int) (st : St) :
    (r = 0 ∧ m.resolveLoop e hosts now v (gw :: gws) r st = (st, [])) ∨
    (r ≠ 0 ∧ (∀ n, (st v.vid).cache.get? gw = some n → n.due now m.neighborTimeout = false) ∧
      m.resolveLoop e hosts now v (gw :: gws) r st = m.resolveLoop e hosts now v gws r st) ∨
    (∃ n r' st' ms, r ≠ 0 ∧ (st v.vid).cache.get? gw = some n ∧ n.due now m.neighborTimeout = true ∧
      m.handler hosts e st now v gw n = (st', ms) ∧ r' = (if ms = [] then r else r - 1) ∧
      m.resolveLoop e hosts now v (gw :: gws) r st =
        ((m.resolveLoop e hosts now v gws r' st').1, ms ++ (m.resolveLoop e hosts now v gws r' st').2)) := by
  by_cases hr : r = 0
  · left; exact ⟨hr, by simp [Mgr.resolveLoop, hr]⟩
  · right
    cases hc : (st v.vid).cache.get? gw with
    | none =>
      left
      refine ⟨hr, (by intro n hn; cases hn), ?_⟩
      simp [Mgr.resolveLoop, hr, hc]
    | some n =>
      by_cases hd : n.due now m.neighborTimeout = true
      · right
        refine ⟨n, (if (m.handler hosts e st now v gw n).2 = [] then r else r - 1), (m.handler hosts e st now v gw n).1,
          (m.handler hosts e st now v gw n).2, hr, rfl, hd, rfl, rfl, ?_⟩
        simp only [Mgr.resolveLoop, if_neg hr, hc, if_pos hd]
      · left
        refine ⟨hr, (by intro n' hn; injection hn with hn; subst hn; simpa using hd), ?_⟩
        simp only [Mgr.resolveLoop, if_neg hr, hc]
        rw [if_neg hd]

theorem loop_other (m : Mgr) (e : Env) (hosts : Bool) (now : Int) (v : Vlan) (gws : List Nat) (r : Int) (st : St) (g : Nat)
    (hg : g ∉ gws) : ((m.resolveLoop e hosts now v gws r st).1 v.vid).cache.get? g = (st v.vid).cache.get? g := by
  induction gws generalizing r st with
  | nil => rfl
  | cons gw gws ih =>
    simp only [List.mem_cons, not_or] at hg
    rcases loop_cons m e hosts now v gw gws r st with ⟨_, h⟩ | ⟨_, _, h⟩ | ⟨n, r', st', ms, _, _, _, hh, _, h⟩
    · rw [h]
    · rw [h]; exact ih r st hg.2
    · rw [h]
      simp only
      rw [ih r' st' hg.2]
      have := handler_other m hosts e st now v gw n g hg.1
      rw [hh] at this
      exact this

theorem loop_asks {m : Mgr} {e : Env} {hosts : Bool} {now : Int} {v : Vlan} {gws : List Nat} {r : Int} {st : St} {vid g : Nat}
    (hnd : gws.Nodup) (h : RMsg.ask vid g ∈ (m.resolveLoop e hosts now v gws r st).2) :
    vid = v.vid ∧ g ∈ gws ∧ ∃ n, (st v.vid).cache.get? g = some n ∧ n.due now m.neighborTimeout = true := by
  induction gws generalizing r st with
  | nil => cases h
  | cons gw gws ih =>
    have hnd' := List.nodup_cons.1 hnd
    rcases loop_cons m e hosts now v gw gws r st with ⟨_, hl⟩ | ⟨_, _, hl⟩ | ⟨n, r', st', ms, _, hc, hd, hh, _, hl⟩
    · rw [hl] at h; cases h
    · rw [hl] at h
      obtain ⟨h1, h2, h3⟩ := ih hnd'.2 h
      exact ⟨h1, List.mem_cons_of_mem _ h2, h3⟩
    · rw [hl] at h
      rcases List.mem_append.1 h with h | h
      · have : RMsg.ask vid g ∈ (m.handler hosts e st now v gw n).2 := by rw [hh]; exact h
        obtain ⟨rfl, h2⟩ := handler_asks this
        exact ⟨h2, by simp, n, hc, hd⟩
      · obtain ⟨h1, h2, n', h3, h4⟩ := ih hnd'.2 h
        refine ⟨h1, List.mem_cons_of_mem _ h2, n', ?_, h4⟩
        have hne : g ≠ gw := fun he => hnd'.1 (he ▸ h2)
        have := handler_other m hosts e st now v gw n g hne
        rw [hh] at this
        rw [← this]
        exact h3

theorem loop_bound {m : Mgr} {e : Env} {hosts : Bool} {now : Int} {v : Vlan} {gws : List Nat} {r : Int} {st : St}
    (hr : 0 ≤ r) (l : List Nat) (hl : l.Nodup)
    (h : ∀ g ∈ l, ∃ vid, RMsg.ask vid g ∈ (m.resolveLoop e hosts now v gws r st).2) : (l.length : Int) ≤ r := by
  induction gws generalizing r st l with
  | nil =>
    cases l with
    | nil => simpa using hr
    | cons a l => obtain ⟨_, h⟩ := h a (by simp); cases h
  | cons gw gws ih =>
    rcases loop_cons m e hosts now v gw gws r st with ⟨_, hq⟩ | ⟨_, _, hq⟩ | ⟨n, r', st', ms, h0, hc, hd, hh, hr', hq⟩
    · cases l with
      | nil => simpa using hr
      | cons a l => obtain ⟨_, h⟩ := h a (by simp); rw [hq] at h; cases h
    · exact ih hr l hl (fun g hg => by obtain ⟨vid, h⟩ := h g hg; rw [hq] at h; exact ⟨vid, h⟩)
    · by_cases hms : ms = []
      · rw [if_pos hms] at hr'
        subst hr'
        refine ih (st := st') hr l hl (fun g hg => ?_)
        obtain ⟨vid, h⟩ := h g hg
        rw [hq, hms] at h
        exact ⟨vid, by simpa using h⟩
      · rw [if_neg hms] at hr'
        have h1 : (((l.filter (fun g => g ≠ gw)).length : Nat) : Int) ≤ r' := by
          refine ih (st := st') (by omega) _ (List.Pairwise.filter _ hl) (fun g hg => ?_)
          simp only [ne_eq, decide_not, List.mem_filter, Bool.not_eq_true', decide_eq_false_iff_not] at hg
          obtain ⟨vid, h⟩ := h g hg.1
          rw [hq] at h
          rcases List.mem_append.1 h with h | h
          · have : RMsg.ask vid g ∈ (m.handler hosts e st now v gw n).2 := by rw [hh]; exact h
            exact absurd (handler_asks this).1 hg.2
          · exact ⟨vid, h⟩
        have h2 : l.length ≤ (l.filter (fun g => g ≠ gw)).length + 1 := by
          clear h h1 ih
          induction l with
          | nil => simp
          | cons a l ih =>
            have hl' := List.nodup_cons.1 hl
            by_cases ha : a = gw
            · subst ha
              have hself : l.filter (fun g => g ≠ a) = l := by
                rw [List.filter_eq_self]
                intro x hx
                simp only [ne_eq, decide_not, Bool.not_eq_true', decide_eq_false_iff_not]
                intro hxa; subst hxa; exact hl'.1 hx
              rw [List.filter_cons_of_neg (by simp), hself]
              simp
            · rw [List.filter_cons_of_pos (by simpa using ha)]
              have := ih hl'.2
              simp only [List.length_cons]
              omega
        omega

theorem loop_order {m : Mgr} {e : Env} {hosts : Bool} {now : Int} {v : Vlan} {a b : List Nat} {r : Int} {st : St} {vid g g' : Nat}
    (hnd : (a ++ g' :: b).Nodup) (hb : g ∈ b) (h : RMsg.ask vid g ∈ (m.resolveLoop e hosts now v (a ++ g' :: b) r st).2)
    (hd : ∃ n, (st v.vid).cache.get? g' = some n ∧ n.due now m.neighborTimeout = true) :
    Handled m v (st v.vid) ((m.resolveLoop e hosts now v (a ++ g' :: b) r st).1 v.vid) g' := by
  induction a generalizing r st with
  | nil =>
    simp only [List.nil_append] at *
    have hnd' := List.nodup_cons.1 hnd
    rcases loop_cons m e hosts now v g' b r st with ⟨_, hq⟩ | ⟨_, hnot, hq⟩ | ⟨n, r', st', ms, h0, hc, _, hh, _, hq⟩
    · rw [hq] at h; cases h
    · obtain ⟨n, h1, h2⟩ := hd
      rw [hnot n h1] at h2
      cases h2
    · rw [hq]
      have h1 := handler_handled m hosts e st now v g' n hc
      have h2 := loop_other m e hosts now v b r' st' g' hnd'.1
      rw [hh] at h1
      unfold Handled at h1 ⊢
      simp only at h1 ⊢
      rw [h2]
      exact h1
  | cons x a ih =>
    simp only [List.cons_append] at *
    have hnd' := List.nodup_cons.1 hnd
    have hx' : g' ≠ x := fun he => hnd'.1 (by rw [← he]; simp)
    have hx : g ≠ x := fun he => hnd'.1 (by rw [← he]; simp [hb])
    rcases loop_cons m e hosts now v x (a ++ g' :: b) r st with ⟨_, hq⟩ | ⟨_, _, hq⟩ | ⟨n, r', st', ms, h0, hc, _, hh, _, hq⟩
    · rw [hq] at h; cases h
    · rw [hq] at h ⊢; exact ih hnd'.2 h hd
    · rw [hq] at h ⊢
      have hsame := handler_other m hosts e st now v x n g' hx'
      rw [hh] at hsame
      simp only at hsame
      have h' : RMsg.ask vid g ∈ (m.resolveLoop e hosts now v (a ++ g' :: b) r' st').2 := by
        rcases List.mem_append.1 h with h | h
        · have : RMsg.ask vid g ∈ (m.handler hosts e st now v x n).2 := by rw [hh]; exact h
          exact absurd (handler_asks this).1 hx
        · exact h
      have := ih hnd'.2 h' (by rw [hsame]; exact hd)
      unfold Handled at this ⊢
      rw [hsame] at this
      exact this

/-! ### The order in which gateways are tried -/

theorem mem_groups {sh : List Nat → List Nat} (hsh : ∀ l, (sh l).Perm l) {f : Nat → Nat} {gws : List Nat} {k g : Nat} :
    g ∈ groups sh f gws k ↔ g ∈ gws ∧ f g < k := by
  induction k with
  | zero => simp [groups]
  | succ k ih =>
    simp only [groups, List.mem_append, ih, (hsh _).mem_iff, List.mem_filter, beq_iff_eq]
    constructor
    · rintro (⟨h1, h2⟩ | ⟨h1, h2⟩)
      · exact ⟨h1, by omega⟩
      · exact ⟨h1, by omega⟩
    · rintro ⟨h1, h2⟩
      by_cases h : f g < k
      · exact Or.inl ⟨h1, h⟩
      · exact Or.inr ⟨h1, by omega⟩

theorem groups_sorted {sh : List Nat → List Nat} (hsh : ∀ l, (sh l).Perm l) (f : Nat → Nat) (gws : List Nat) (k : Nat) :
    (groups sh f gws k).Pairwise (fun a b => f a ≤ f b) := by
  induction k with
  | zero => exact List.Pairwise.nil
  | succ k ih =>
    simp only [groups]
    rw [List.pairwise_append]
    have hm : ∀ x, x ∈ sh (gws.filter (fun gw => f gw == k)) → f x = k := by
      intro x hx
      rw [(hsh _).mem_iff] at hx
      simpa using (List.mem_filter.1 hx).2
    refine ⟨ih, ?_, ?_⟩
    · exact List.pairwise_of_forall_mem_list (fun a ha b hb => by rw [hm a ha, hm b hb]; exact Nat.le_refl k)
    · intro a ha b hb
      have := ((mem_groups hsh).1 ha).2
      rw [hm b hb]
      omega

theorem groups_nodup {sh : List Nat → List Nat} (hsh : ∀ l, (sh l).Perm l) (f : Nat → Nat) {gws : List Nat} (h : gws.Nodup)
    (k : Nat) : (groups sh f gws k).Nodup := by
  induction k with
  | zero => exact List.Pairwise.nil
  | succ k ih =>
    simp only [groups]
    rw [List.nodup_append]
    refine ⟨ih, (hsh _).nodup_iff.2 (List.Pairwise.filter _ h), ?_⟩
    intro a ha b hb hab
    subst hab
    have h1 := ((mem_groups hsh).1 ha).2
    rw [(hsh _).mem_iff] at hb
    have h2 := (List.mem_filter.1 hb).2
    simp at h2
    omega

theorem lt_bound (f : Nat → Nat) {gws : List Nat} {g : Nat} (h : g ∈ gws) : f g < bound f gws := by
  unfold bound
  induction gws with
  | nil => cases h
  | cons a gws ih =>
    simp only [List.foldr_cons]
    rcases List.mem_cons.1 h with rfl | h
    · omega
    · have := ih h; omega

theorem touch_get (now : Int) (s : VState) (gws : List Nat) (g : Nat) (n : NextHop) (h : s.cache.get? g = some n) :
    (gws.foldl (VState.touch now) s).cache.get? g = some n := by
  induction gws generalizing s with
  | nil => exact h
  | cons a gws ih =>
    simp only [List.foldl_cons]
    refine ih _ ?_
    unfold VState.touch
    cases hc : s.cache.get? a with
    | some x => exact h
    | none =>
      simp only [VState.setHop]
      rw [Dict.get?_set_ne _ _ (by rintro rfl; rw [h] at hc; cases hc)]
      exact h

theorem touch_new (now : Int) (s : VState) (gws : List Nat) (g : Nat) (n : NextHop)
    (h : (gws.foldl (VState.touch now) s).cache.get? g = some n) :
    s.cache.get? g = some n ∨ (s.cache.get? g = none ∧ n = NextHop.new none none now) := by
  induction gws generalizing s with
  | nil => exact Or.inl h
  | cons a gws ih =>
    simp only [List.foldl_cons] at h
    have := ih _ h
    unfold VState.touch at this
    cases hc : s.cache.get? a with
    | some x => rw [hc] at this; exact this
    | none =>
      rw [hc] at this
      simp only [VState.setHop] at this
      rw [Dict.get?_set] at this
      by_cases ha : a = g
      · subst ha
        rw [if_pos rfl] at this
        rcases this with h1 | ⟨h1, _⟩
        · injection h1 with h1; exact Or.inr ⟨hc, h1.symm⟩
        · cases h1
      · rw [if_neg ha] at this; exact this

theorem setUnres_cache (s : VState) (hosts : Bool) (l : List Nat) : (s.setUnres hosts l).cache = s.cache := by
  unfold VState.setUnres; split <;> rfl

theorem new_not_due (now maxAge : Int) : (NextHop.new none none now).due now maxAge = false := by
  cases h : (NextHop.new none none now).due now maxAge with
  | false => rfl
  | true =>
    have := (due_iff.1 h).2 now rfl
    omega

theorem pick_nodup {m : Mgr} {e : Env} (hsh : ∀ l, (e.shuffle l).Perm l) {s : VState} {hosts all : Bool} {now : Int}
    (hnd : (s.gwsOf hosts).Nodup) : (m.pick e s hosts all now).2.Nodup := by
  unfold Mgr.pick
  split
  · exact groups_nodup hsh _ (List.Pairwise.filter _ hnd) _
  · split
    · exact List.Pairwise.nil
    · simp

/-- The entries that are due are the old ones. -/
theorem pick_due {m : Mgr} {e : Env} {s : VState} {hosts all : Bool} {now : Int} {g : Nat} :
    (∃ n, (m.pick e s hosts all now).1.cache.get? g = some n ∧ n.due now m.neighborTimeout = true) ↔
    (∃ n, s.cache.get? g = some n ∧ n.due now m.neighborTimeout = true) := by
  unfold Mgr.pick
  split
  · simp only [setUnres_cache, Mgr.unresolved]
    constructor
    · rintro ⟨n, h1, h2⟩
      rcases touch_new now s _ g n h1 with h | ⟨_, h⟩
      · exact ⟨n, h, h2⟩
      · subst h; rw [new_not_due] at h2; cases h2
    · rintro ⟨n, h1, h2⟩
      exact ⟨n, touch_get now s _ g n h1, h2⟩
  · split
    · exact Iff.rfl
    · simp only [setUnres_cache]

theorem mem_sorted_split {f : Nat → Nat} {l : List Nat} {g g' : Nat} (hs : l.Pairwise (fun a b => f a ≤ f b)) (hg : g ∈ l)
    (hg' : g' ∈ l) (hlt : f g' < f g) : ∃ a b, l = a ++ g' :: b ∧ g ∈ b := by
  obtain ⟨a, b, rfl⟩ := List.append_of_mem hg'
  refine ⟨a, b, rfl, ?_⟩
  rcases List.mem_append.1 hg with h | h
  · have := (List.pairwise_append.1 hs).2.2 g h g' (by simp)
    omega
  · rcases List.mem_cons.1 h with rfl | h
    · omega
    · exact h

/-! ### Properties -/

/-- C19. One run of the resolver asks for at most `max_hosts_per_resolve_cycle` gateways, and only for gateways of the
VLAN whose resolution is due. (A negative limit is no limit.) -/
theorem resolve_bounded (m : Mgr) (e : Env) (hsh : ∀ l, (e.shuffle l).Perm l) (st : St) (hosts all : Bool) (now : Int) (v : Vlan)
    (hset : ((st v.vid).gwsOf hosts).Nodup) :
    (0 ≤ m.maxPerCycle → ∀ gws : List Nat, gws.Nodup →
      (∀ g ∈ gws, ∃ vid, RMsg.ask vid g ∈ (m.resolve e st hosts all now v).2) → (gws.length : Int) ≤ m.maxPerCycle) ∧
    (∀ vid g, RMsg.ask vid g ∈ (m.resolve e st hosts all now v).2 → vid = v.vid ∧
      ∃ n, (st v.vid).cache.get? g = some n ∧ n.due now m.neighborTimeout = true) := by
  refine ⟨?_, ?_⟩
  · intro h0 gws hnd h
    exact loop_bound h0 gws hnd h
  · intro vid g h
    obtain ⟨h1, _, h3⟩ := loop_asks (pick_nodup hsh hset) h
    rw [upd_self] at h3
    exact ⟨h1, pick_due.1 h3⟩

/-- C19, order. A full run that asks for a gateway has first dealt with every gateway that is due and has been tried less
often. -/
theorem resolve_fewest_first (m : Mgr) (e : Env) (hsh : ∀ l, (e.shuffle l).Perm l) (st : St) (hosts : Bool) (now : Int)
    (v : Vlan) (hset : ((st v.vid).gwsOf hosts).Nodup) (vid g g' : Nat)
    (hask : RMsg.ask vid g ∈ (m.resolve e st hosts true now v).2) (n n' : NextHop) (hn : (st v.vid).cache.get? g = some n)
    (hg' : g' ∈ (st v.vid).gwsOf hosts) (hn' : (st v.vid).cache.get? g' = some n') (hdue : n'.due now m.neighborTimeout = true)
    (hlt : n'.retries < n.retries) :
    Handled m v (st v.vid) ((m.resolve e st hosts true now v).1 v.vid) g' := by
  have hpick : (m.pick e (st v.vid) hosts true now).2 = groups e.shuffle (st v.vid).retries
      (m.notFresh (st v.vid) now ((st v.vid).gwsOf hosts))
      (bound (st v.vid).retries (m.notFresh (st v.vid) now ((st v.vid).gwsOf hosts))) := by
    simp [Mgr.pick, Mgr.unresolved]
  have hmem : g' ∈ (m.pick e (st v.vid) hosts true now).2 := by
    rw [hpick, mem_groups hsh]
    have h1 : g' ∈ m.notFresh (st v.vid) now ((st v.vid).gwsOf hosts) := by
      unfold Mgr.notFresh
      rw [List.mem_filter]
      refine ⟨hg', ?_⟩
      rw [hn']
      exact hdue
    exact ⟨h1, lt_bound _ h1⟩
  have hnd := pick_nodup (m := m) (all := true) (now := now) hsh hset
  have hgm := (loop_asks hnd hask).2.1
  have hlt' : (st v.vid).retries g' < (st v.vid).retries g := by
    simp only [VState.retries, hn, hn']
    exact hlt
  have hsorted := groups_sorted hsh (st v.vid).retries (m.notFresh (st v.vid) now ((st v.vid).gwsOf hosts))
    (bound (st v.vid).retries (m.notFresh (st v.vid) now ((st v.vid).gwsOf hosts)))
  rw [← hpick] at hsorted
  obtain ⟨a, b, hab, hgb⟩ := mem_sorted_split hsorted hgm hmem hlt'
  have h1 : Handled m v ((m.pick e (st v.vid) hosts true now).1) ((m.resolve e st hosts true now v).1 v.vid) g' := by
    unfold Mgr.resolve at hask ⊢
    rw [hab] at hask hnd ⊢
    have hd : ∃ n, ((st.upd v.vid (m.pick e (st v.vid) hosts true now).1) v.vid).cache.get? g' = some n ∧
        n.due now m.neighborTimeout = true := by
      rw [upd_self]
      exact pick_due.2 ⟨n', hn', hdue⟩
    have := loop_order hnd hgb hask hd
    rw [upd_self] at this
    exact this
  rcases h1 with h | h | ⟨n1, n2, h1, h2, h3⟩
  · exact Or.inl h
  · exact Or.inr (Or.inl h)
  · refine Or.inr (Or.inr ⟨n1, n2, ?_, h2, h3⟩)
    have : (m.pick e (st v.vid) hosts true now).1.cache.get? g' = some n' := by
      simp only [Mgr.pick, if_true, setUnres_cache, Mgr.unresolved]
      exact touch_get now _ _ g' n' hn'
    rw [this] at h1
    rw [hn', h1]

end Faucet.Route
