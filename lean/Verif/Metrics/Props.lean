import Verif.Metrics.Model

/-! # What FAUCET's metrics say about hosts: theorems -/

namespace Faucet.Metrics

open HostCache (Port Entry Vlan cachedHost cachedHostsOnPort cachedHostsCountOnPort onPort Inv)

/-! ## Specification -/

/-- FAUCET knows the host on the port (C01 says what it knows). -/
def Knows (s : St) (m n : Nat) : Prop := ∃ e, cachedHost s.cache m = some e ∧ e.port.number = n

/-- The event moves no host to another port, and is no change of the configuration. -/
def Quiet (s : St) : Ev → Prop
  | .learn m p _ => ∀ n, Knows s m n → n = p.number
  | .reload => False
  | _ => True

def AllQuiet (order : List Entry → List Entry) : St → List Ev → Prop
  | _, [] => True
  | s, e :: es => Quiet s e ∧ ∀ s', step order s e = some s' → AllQuiet order s' es

/-! ## The host table -/

/-- The MAC addresses in the index of a port. -/
def macsOn (v : Vlan) (n : Nat) : List Nat := (onPort v n).map (·.ethSrc)

theorem mem_macsOn {v : Vlan} (hi : Inv v) {n m : Nat} : m ∈ macsOn v n ↔ ∃ e, v.hostCache.get? m = some e ∧ e.port.number = n := by
  unfold macsOn
  rw [List.mem_map]
  constructor
  · rintro ⟨e, he, rfl⟩
    exact ⟨e, (hi.index n e).1 he⟩
  · rintro ⟨e, h1, h2⟩
    have := hi.key m e h1
    exact ⟨e, (hi.index n e).2 ⟨by rw [this]; exact h1, h2⟩, this⟩

theorem perm_of_same {v v' : Vlan} (hi : Inv v) (hi' : Inv v') {n : Nat}
    (h : ∀ m, (∃ e, v.hostCache.get? m = some e ∧ e.port.number = n) ↔ (∃ e, v'.hostCache.get? m = some e ∧ e.port.number = n)) :
    (macsOn v n).Perm (macsOn v' n) :=
  (List.perm_ext_iff_of_nodup (hi.nodupPort n) (hi'.nodupPort n)).2 (fun m => by
    show m ∈ macsOn v n ↔ m ∈ macsOn v' n
    rw [mem_macsOn hi, mem_macsOn hi', h])

/-- Histories do not raise, and the host table stays consistent. -/
theorem cache_step {order : List Entry → List Entry} {s : St} (hi : Inv s.cache) (e : Ev) :
    ∃ s', step order s e = some s' ∧ Inv s'.cache := by
  cases e with
  | learn m p t =>
    obtain ⟨v', h, h'⟩ := HostCache.step_inv hi (.learn m p t)
    exact ⟨_, by unfold step; dsimp only; rw [h]; rfl, h'⟩
  | ruleExpired m p =>
    unfold step
    dsimp only
    cases HostCache.cachedHostOnPort s.cache m p with
    | none => exact ⟨s, rfl, hi⟩
    | some e =>
      obtain ⟨v', h, h'⟩ := HostCache.step_inv hi (.forget m)
      exact ⟨_, by dsimp only; rw [h]; rfl, h'⟩
  | portDown p =>
    obtain ⟨v', h, h'⟩ := HostCache.step_inv hi (.clearPort p)
    exact ⟨_, by unfold step; dsimp only; rw [h]; rfl, h'⟩
  | sweep a b =>
    obtain ⟨v', h, h'⟩ := HostCache.step_inv hi (.sweep a b)
    exact ⟨_, by unfold step; dsimp only; rw [h]; rfl, h'⟩
  | delVlan => exact ⟨_, rfl, HostCache.inv_reset _⟩
  | coldStart => exact ⟨_, rfl, HostCache.inv_reset _⟩
  | reload => exact ⟨_, rfl, HostCache.inv_init⟩
  | update ps =>
    refine ⟨_, rfl, ?_⟩
    have : ∀ (ps : List Port) (s : St), (ps.foldl (updatePort order) s).cache = s.cache := by
      intro ps
      induction ps with
      | nil => intro s; rfl
      | cons p ps ih =>
        intro s
        rw [List.foldl_cons, ih]
        unfold updatePort
        dsimp only
        split <;> rfl
    rw [this]
    exact hi

theorem cache_run {order : List Entry → List Entry} : ∀ (es : List Ev) {s : St}, Inv s.cache → ∃ s', run order s es = some s' ∧ Inv s'.cache
  | [], s, hi => ⟨s, rfl, hi⟩
  | e :: es, s, hi => by
    obtain ⟨s1, h1, hi1⟩ := cache_step (order := order) hi e
    obtain ⟨s2, h2, hi2⟩ := cache_run es hi1
    refine ⟨s2, ?_, hi2⟩
    show (step order s e).bind _ = _
    rw [h1]
    exact h2

/-! ## Updates -/

theorem updatePort_cache (order : List Entry → List Entry) (s : St) (p : Port) : (updatePort order s p).cache = s.cache := by
  unfold updatePort
  dsimp only
  split <;> rfl

theorem updatePort_total (order : List Entry → List Entry) (s : St) (p : Port) : (updatePort order s p).total = s.total := by
  unfold updatePort
  dsimp only
  split <;> rfl

theorem updatePort_count (order : List Entry → List Entry) (s : St) (p : Port) (n : Nat) :
    (updatePort order s p).count n = if n = p.number then cachedHostsCountOnPort s.cache p else s.count n := by
  unfold updatePort
  dsimp only
  split <;> rfl

theorem update_counts (order : List Entry → List Entry) : ∀ (ps : List Port) (s : St),
    (ps.foldl (updatePort order) s).cache = s.cache ∧ (ps.foldl (updatePort order) s).total = s.total ∧
    ∀ n, (ps.foldl (updatePort order) s).count n = if n ∈ ps.map (·.number) then (macsOn s.cache n).length else s.count n
  | [], s => ⟨rfl, rfl, fun n => by simp⟩
  | p :: ps, s => by
    obtain ⟨h1, h2, h3⟩ := update_counts order ps (updatePort order s p)
    refine ⟨by rw [List.foldl_cons, h1, updatePort_cache], by rw [List.foldl_cons, h2, updatePort_total], fun n => ?_⟩
    rw [List.foldl_cons, h3, updatePort_cache, updatePort_count]
    by_cases hn : n ∈ ps.map (·.number)
    · rw [if_pos hn, if_pos (by rw [List.map_cons]; exact List.mem_cons_of_mem _ hn)]
    · rw [if_neg hn]
      by_cases e : n = p.number
      · subst e
        rw [if_pos rfl, if_pos (by rw [List.map_cons]; exact List.mem_cons_self), HostCache.cachedHostsCountOnPort_eq,
          HostCache.cachedHostsOnPort_eq]
        unfold macsOn
        rw [List.length_map]
      · rw [if_neg e, if_neg (by rw [List.map_cons, List.mem_cons]; exact fun h => h.elim e hn)]

/-- **C75.** Whatever has happened, after an update the number of hosts that is shown for each of the updated ports is the number of
hosts that FAUCET knows there, and the number that is shown for the VLAN is that of all hosts it knows. Updates raise no exception. -/
theorem counts_right {order : List Entry → List Entry} (es : List Ev) (ps : List Port) :
    ∃ s, run order {} (es ++ [.update ps]) = some s ∧
      (∀ p ∈ ps, ∃ l : List Nat, l.Nodup ∧ (∀ m, m ∈ l ↔ Knows s m p.number) ∧ s.count p.number = l.length) ∧
      ∃ l : List Nat, l.Nodup ∧ (∀ m, m ∈ l ↔ ∃ n, Knows s m n) ∧ s.total = l.length := by
  obtain ⟨s1, h1, hi1⟩ := cache_run (order := order) es (s := {}) HostCache.inv_init
  have hr : ∀ (es : List Ev) (s : St), run order s (es ++ [.update ps]) = (run order s es).bind (fun s' => step order s' (.update ps)) := by
    intro es
    induction es with
    | nil => intro s; show (step order s (.update ps)).bind _ = _; rfl
    | cons e es ih =>
      intro s
      show (step order s e).bind _ = ((step order s e).bind _).bind _
      cases step order s e with
      | none => rfl
      | some s' => exact ih s'
  rw [hr, h1]
  obtain ⟨h2, h3, h4⟩ := update_counts order ps { s1 with total := HostCache.hostsCount s1.cache }
  refine ⟨_, rfl, fun p hp => ⟨macsOn s1.cache p.number, hi1.nodupPort _, fun m => ?_, ?_⟩, s1.cache.hostCache.keys, hi1.nodup, fun m => ?_, ?_⟩
  · unfold Knows
    rw [h2]
    exact mem_macsOn hi1
  · rw [h4, if_pos (List.mem_map_of_mem hp)]
  · unfold Knows
    rw [h2]
    constructor
    · intro hm
      obtain ⟨⟨k, e⟩, he, rfl⟩ := List.mem_map.1 hm
      exact ⟨_, e, Dict.get?_of_mem hi1.nodup he, rfl⟩
    · rintro ⟨n, e, he, -⟩
      exact List.mem_map.2 ⟨(m, e), Dict.mem_of_get? he, rfl⟩
  · rw [h3]
    unfold HostCache.hostsCount Dict.keys
    simp

/-! ## How hosts come and go -/

/-- What an event other than an update does to the hosts on the ports that are not marked, and to the metrics. -/
theorem removed_same {v v' : Vlan} {es : List Entry} {stale : Nat → Bool} {n : Nat} (hes : ∀ e ∈ es, v.hostCache.get? e.ethSrc = some e)
    (hg : ∀ x, v'.hostCache.get? x = if x ∈ es.map (·.ethSrc) then none else v.hostCache.get? x)
    (hs : mark (es.map (·.port.number)) stale n = false) (m : Nat) :
    (∃ e, v.hostCache.get? m = some e ∧ e.port.number = n) ↔ (∃ e, v'.hostCache.get? m = some e ∧ e.port.number = n) := by
  rw [hg]
  by_cases hm : m ∈ es.map (·.ethSrc)
  · rw [if_pos hm]
    obtain ⟨e, he, rfl⟩ := List.mem_map.1 hm
    constructor
    · rintro ⟨e', h1, h2⟩
      rw [hes e he] at h1
      cases h1
      have : mark (es.map (·.port.number)) stale n = true := by
        unfold mark
        rw [List.contains_iff_mem.2 (List.mem_map.2 ⟨e, he, h2⟩)]
        rfl
      rw [hs] at this
      cases this
    · rintro ⟨e', h1, -⟩
      cases h1
  · rw [if_neg hm]

theorem mark_false {ns : List Nat} {stale : Nat → Bool} {n : Nat} (h : mark ns stale n = false) : n ∉ ns ∧ stale n = false := by
  unfold mark at h
  rw [Bool.or_eq_false_iff] at h
  exact ⟨(fun hm => by rw [List.contains_iff_mem.2 hm] at h; exact absurd h.1 (by decide)), h.2⟩

theorem expired_mem {v : Vlan} (hi : Inv v) {now timeout : Int} {e : Entry} (he : e ∈ expired v now timeout) :
    v.hostCache.get? e.ethSrc = some e := by
  unfold expired at he
  by_cases hd : HostCache.due v now timeout = true
  · rw [if_pos hd] at he
    obtain ⟨he, -⟩ := List.mem_filter.1 he
    obtain ⟨⟨k, e'⟩, hk, rfl⟩ := List.mem_map.1 he
    have := Dict.get?_of_mem hi.nodup hk
    rw [hi.key _ _ this]
    exact this
  · rw [if_neg hd] at he
    exact absurd he List.not_mem_nil

theorem onPort_mem {v : Vlan} (hi : Inv v) {p : Port} {e : Entry} (he : e ∈ cachedHostsOnPort v p) :
    v.hostCache.get? e.ethSrc = some e := by
  rw [HostCache.cachedHostsOnPort_eq] at he
  exact ((hi.index _ _).1 he).1

theorem portDown_spec {v : Vlan} (hi : Inv v) (p : Port) : ∃ v', HostCache.step v (.clearPort p) = some v' ∧ Inv v' ∧
    ∀ x, v'.hostCache.get? x = if x ∈ (cachedHostsOnPort v p).map (·.ethSrc) then none else v.hostCache.get? x := by
  obtain ⟨v', h1, h2, -, h3, -⟩ := HostCache.expireAll_spec (cachedHostsOnPort v p) hi
  exact ⟨v', h1, h2, h3⟩

theorem sweep_spec' {v : Vlan} (hi : Inv v) (now timeout : Int) : ∃ v', HostCache.step v (.sweep now timeout) = some v' ∧ Inv v' ∧
    ∀ x, v'.hostCache.get? x = if x ∈ (expired v now timeout).map (·.ethSrc) then none else v.hostCache.get? x := by
  obtain ⟨ex, v', h1, h2, h3⟩ := HostCache.sweep_spec hi now timeout
  refine ⟨v', by show (HostCache.expireCacheHosts v now timeout).map _ = _; rw [h1]; rfl, h2, fun x => ?_⟩
  unfold expired
  by_cases hd : HostCache.due v now timeout = true
  · rw [if_pos hd] at h3 ⊢
    rw [h3.2.2 x]
    have := HostCache.mem_expired hi (now - timeout) x
    by_cases hx : ∃ e, v.hostCache.get? x = some e ∧ e.cacheTime < now - timeout ∧ e.port.permanentLearn = false
    · rw [if_pos hx, if_pos (this.2 hx)]
    · rw [if_neg hx, if_neg (fun h => hx (this.1 h))]
  · rw [if_neg hd] at h3 ⊢
    rw [h3.2]
    rfl

/-! ## The port of a host -/

theorem removeAll_keep {es : List Entry} {l : Nat → Option Nat} {m : Nat} (h : m ∉ es.map (·.ethSrc)) : removeAll es l m = l m := by
  unfold removeAll
  rw [if_neg]
  intro ha
  obtain ⟨e, he, hm⟩ := List.any_eq_true.1 ha
  exact h (List.mem_map.2 ⟨e, he, by simpa using hm⟩)

theorem fold_cache (order : List Entry → List Entry) (ps : List Port) (s : St) :
    (ps.foldl (updatePort order) s).cache = s.cache ∧ (ps.foldl (updatePort order) s).l2port = s.l2port := by
  induction ps generalizing s with
  | nil => exact ⟨rfl, rfl⟩
  | cons p ps ih =>
    rw [List.foldl_cons, (ih _).1, (ih _).2]
    unfold updatePort
    dsimp only
    split <;> exact ⟨rfl, rfl⟩

theorem l2port_step {order : List Entry → List Entry} {s s' : St} {e : Ev} (hi : Inv s.cache) (h : ∀ m n, Knows s m n → s.l2port m = some n)
    (hs : step order s e = some s') : ∀ m n, Knows s' m n → s'.l2port m = some n := by
  cases e with
  | learn m p t =>
    obtain ⟨v', h1, -, -, h3, -⟩ := HostCache.add_spec hi m p t
    unfold step at hs
    dsimp only at hs
    rw [show HostCache.step s.cache (.learn m p t) = some v' from h1] at hs
    cases hs
    rintro x n ⟨e, he, hn⟩
    unfold cachedHost at he
    dsimp only at he ⊢
    rw [h3] at he
    by_cases hx : m = x
    · rw [if_pos hx] at he
      cases he
      rw [if_pos hx.symm, hn]
    · rw [if_neg hx] at he
      rw [if_neg (fun h => hx h.symm)]
      exact h x n ⟨e, he, hn⟩
  | ruleExpired m p =>
    unfold step at hs
    dsimp only at hs
    cases hc : HostCache.cachedHostOnPort s.cache m p with
    | none =>
      rw [hc] at hs
      cases hs
      exact h
    | some e0 =>
      obtain ⟨v', h1, -, -, h3, -⟩ := HostCache.expire_spec hi m
      rw [hc] at hs
      dsimp only at hs
      rw [show HostCache.step s.cache (.forget m) = some v' from h1] at hs
      cases hs
      rintro x n ⟨e, he, hn⟩
      unfold cachedHost at he
      dsimp only at he ⊢
      rw [h3] at he
      by_cases hx : m = x
      · rw [if_pos hx] at he
        cases he
      · rw [if_neg hx] at he
        exact h x n ⟨e, he, hn⟩
  | portDown p =>
    obtain ⟨v', h1, -, h3⟩ := portDown_spec hi p
    unfold step at hs
    dsimp only at hs
    rw [h1] at hs
    cases hs
    rintro x n ⟨e, he, hn⟩
    unfold cachedHost at he
    dsimp only at he ⊢
    rw [h3] at he
    by_cases hx : x ∈ (cachedHostsOnPort s.cache p).map (·.ethSrc)
    · rw [if_pos hx] at he
      cases he
    · rw [if_neg hx] at he
      rw [removeAll_keep hx]
      exact h x n ⟨e, he, hn⟩
  | sweep a b =>
    obtain ⟨v', h1, -, h3⟩ := sweep_spec' hi a b
    unfold step at hs
    dsimp only at hs
    rw [h1] at hs
    cases hs
    rintro x n ⟨e, he, hn⟩
    unfold cachedHost at he
    dsimp only at he ⊢
    rw [h3] at he
    by_cases hx : x ∈ (expired s.cache a b).map (·.ethSrc)
    · rw [if_pos hx] at he
      cases he
    · rw [if_neg hx] at he
      rw [removeAll_keep hx]
      exact h x n ⟨e, he, hn⟩
  | delVlan =>
    cases hs
    rintro x n ⟨e, he, -⟩
    cases he
  | coldStart =>
    cases hs
    rintro x n ⟨e, he, -⟩
    cases he
  | reload =>
    cases hs
    rintro x n ⟨e, he, -⟩
    cases he
  | update ps =>
    cases hs
    intro x n hk
    rw [(fold_cache order ps _).2]
    unfold Knows at hk
    rw [(fold_cache order ps _).1] at hk
    exact h x n hk

/-- **C75.** Whatever has happened, `learned_l2_port` shows for every host that FAUCET knows the port on which it knows it. -/
theorem l2_port_right {order : List Entry → List Entry} (es : List Ev) :
    ∃ s, run order {} es = some s ∧ ∀ m n, Knows s m n → s.l2port m = some n := by
  have : ∀ (es : List Ev) (s : St), Inv s.cache → (∀ m n, Knows s m n → s.l2port m = some n) →
      ∃ s', run order s es = some s' ∧ ∀ m n, Knows s' m n → s'.l2port m = some n := by
    intro es
    induction es with
    | nil => intro s _ h; exact ⟨s, rfl, h⟩
    | cons e es ih =>
      intro s hi h
      obtain ⟨s1, h1, hi1⟩ := cache_step (order := order) hi e
      obtain ⟨s2, h2, h3⟩ := ih s1 hi1 (l2port_step hi h h1)
      refine ⟨s2, ?_, h3⟩
      show (step order s e).bind _ = _
      rw [h1]
      exact h2
  exact this es {} HostCache.inv_init (by rintro m n ⟨e, he, -⟩; cases he)

/-! ## The MAC addresses of a port -/

/-- The metrics of the port list its hosts. -/
def Listed (s : St) (n : Nat) : Prop :=
  ∃ l : List Nat, l.Perm (macsOn s.cache n) ∧ s.high n = l.length ∧ ∀ i, s.macs n i = l.getD i 0

structure MInv (s : St) : Prop where
  inv : Inv s.cache
  listed : ∀ n, s.stale n = false → Listed s n
  zero : ∀ n i, s.high n ≤ i → s.macs n i = 0

theorem Listed.congr {s s' : St} {n : Nat} (h : Listed s n) (hm : s'.macs n = s.macs n) (hh : s'.high n = s.high n)
    (hp : (macsOn s.cache n).Perm (macsOn s'.cache n)) : Listed s' n := by
  obtain ⟨l, h1, h2, h3⟩ := h
  exact ⟨l, h1.trans hp, by rw [hh, h2], by rw [hm]; exact h3⟩

theorem getD_past {l : List Nat} {i : Nat} (h : l.length ≤ i) : l.getD i 0 = 0 := by
  rw [List.getD_eq_getElem?_getD, List.getElem?_eq_none h]
  rfl

theorem updatePort_minv {order : List Entry → List Entry} (ho : ∀ l, (order l).Perm l) {s : St} (h : MInv s) (p : Port) :
    MInv (updatePort order s p) ∧ (updatePort order s p).stale p.number = false ∧
    ∀ n, s.stale n = false → (updatePort order s p).stale n = false := by
  unfold updatePort
  dsimp only
  by_cases hc : s.high p.number = cachedHostsCountOnPort s.cache p ∧ s.stale p.number = false
  · rw [if_pos hc]
    exact ⟨⟨h.inv, h.listed, h.zero⟩, hc.2, fun n hn => hn⟩
  · rw [if_neg hc]
    have hlen : ((order (cachedHostsOnPort s.cache p)).map (·.ethSrc)).length = cachedHostsCountOnPort s.cache p := by
      rw [List.length_map, (ho _).length_eq, HostCache.cachedHostsCountOnPort_eq]
    have hshow : ∀ i, showMacs ((order (cachedHostsOnPort s.cache p)).map (·.ethSrc)) (s.high p.number) (s.macs p.number) i =
        ((order (cachedHostsOnPort s.cache p)).map (·.ethSrc)).getD i 0 := by
      intro i
      unfold showMacs
      by_cases h1 : i < ((order (cachedHostsOnPort s.cache p)).map (·.ethSrc)).length
      · rw [if_pos h1]
      · rw [if_neg h1, getD_past (by omega)]
        split
        · rfl
        · rename_i h2
          exact h.zero _ _ (by omega)
    refine ⟨⟨h.inv, fun n hn => ?_, fun n i hi => ?_⟩, if_pos rfl, fun n hn => ?_⟩
    · by_cases e : n = p.number
      · subst e
        refine ⟨(order (cachedHostsOnPort s.cache p)).map (·.ethSrc), ?_, ?_, fun i => ?_⟩
        · dsimp only
          unfold macsOn
          rw [← HostCache.cachedHostsOnPort_eq]
          exact (ho _).map _
        · dsimp only
          rw [if_pos rfl, hlen]
        · dsimp only
          rw [if_pos rfl]
          exact hshow i
      · dsimp only at hn
        rw [if_neg e] at hn
        exact (h.listed n hn).congr (if_neg e) (if_neg e) (List.Perm.refl _)
    · dsimp only at hi ⊢
      by_cases e : n = p.number
      · subst e
        rw [if_pos rfl] at hi ⊢
        rw [hshow, getD_past (by omega)]
      · rw [if_neg e] at hi ⊢
        exact h.zero n i hi
    · dsimp only
      by_cases e : n = p.number
      · rw [if_pos e]
      · rw [if_neg e]
        exact hn

theorem update_minv {order : List Entry → List Entry} (ho : ∀ l, (order l).Perm l) : ∀ (ps : List Port) {s : St}, MInv s →
    MInv (ps.foldl (updatePort order) s) ∧ (∀ p ∈ ps, (ps.foldl (updatePort order) s).stale p.number = false) ∧
    ∀ n, s.stale n = false → (ps.foldl (updatePort order) s).stale n = false
  | [], s, h => ⟨h, fun _ hp => absurd hp List.not_mem_nil, fun _ hn => hn⟩
  | p :: ps, s, h => by
    obtain ⟨h1, h2, h3⟩ := updatePort_minv ho h p
    obtain ⟨h4, h5, h6⟩ := update_minv ho ps h1
    rw [List.foldl_cons]
    refine ⟨h4, fun q hq => ?_, fun n hn => h6 n (h3 n hn)⟩
    rcases List.mem_cons.1 hq with rfl | hq
    · exact h6 _ h2
    · exact h5 q hq

theorem MInv.mk' {s s' : St} (h : MInv s) (hi : Inv s'.cache) (hm : s'.macs = s.macs) (hh : s'.high = s.high)
    (hs : ∀ n, s'.stale n = false → s.stale n = false ∧ ∀ m, (∃ e, s.cache.hostCache.get? m = some e ∧ e.port.number = n) ↔
      (∃ e, s'.cache.hostCache.get? m = some e ∧ e.port.number = n)) : MInv s' :=
  ⟨hi, fun n hn => (h.listed n (hs n hn).1).congr (by rw [hm]) (by rw [hh]) (perm_of_same h.inv hi (hs n hn).2),
   fun n i hni => by rw [hm]; exact h.zero n i (by rw [hh] at hni; exact hni)⟩

theorem minv_step {order : List Entry → List Entry} (ho : ∀ l, (order l).Perm l) {s s' : St} {e : Ev} (h : MInv s) (hq : Quiet s e)
    (hs : step order s e = some s') : MInv s' := by
  cases e with
  | learn m p t =>
    obtain ⟨v', h1, h2, -, h3, -⟩ := HostCache.add_spec h.inv m p t
    unfold step at hs
    dsimp only at hs
    rw [show HostCache.step s.cache (.learn m p t) = some v' from h1] at hs
    cases hs
    refine h.mk' h2 rfl rfl (fun n hn => ⟨(mark_false hn).2, fun x => ?_⟩)
    have hmk := (mark_false hn).1
    dsimp only
    rw [h3]
    by_cases hx : m = x
    · subst hx
      rw [if_pos rfl]
      cases hc : s.cache.hostCache.get? m with
      | none =>
        have hcn : (cachedHost s.cache m).isNone = true := by unfold cachedHost; rw [hc]; rfl
        rw [if_pos hcn] at hmk
        constructor
        · rintro ⟨e, he, -⟩
          cases he
        · rintro ⟨e, he, hn2⟩
          cases he
          exact absurd (List.mem_singleton.2 hn2.symm) hmk
      | some e0 =>
        have := hq e0.port.number ⟨e0, hc, rfl⟩
        constructor
        · rintro ⟨e, he, hn2⟩
          cases he
          exact ⟨_, rfl, by rw [← hn2, this]⟩
        · rintro ⟨e, he, hn2⟩
          cases he
          exact ⟨e0, rfl, by rw [this]; exact hn2⟩
    · rw [if_neg hx]
  | ruleExpired m p =>
    unfold step at hs
    dsimp only at hs
    cases hc : HostCache.cachedHostOnPort s.cache m p with
    | none =>
      rw [hc] at hs
      cases hs
      exact h
    | some e0 =>
      obtain ⟨v', h1, h2, -, h3, -⟩ := HostCache.expire_spec h.inv m
      rw [hc] at hs
      dsimp only at hs
      rw [show HostCache.step s.cache (.forget m) = some v' from h1] at hs
      cases hs
      have hg0 : s.cache.hostCache.get? m = some e0 := by
        unfold HostCache.cachedHostOnPort cachedHost at hc
        cases hg : s.cache.hostCache.get? m with
        | none => rw [hg] at hc; cases hc
        | some e1 =>
          rw [hg] at hc
          revert hc
          dsimp only
          split
          · exact fun h => h
          · exact fun h => by cases h
      refine h.mk' h2 rfl rfl (fun n hn => ⟨(mark_false hn).2, fun x => ?_⟩)
      refine removed_same (es := [e0]) (v := s.cache) (v' := v') ?_ ?_ hn x
      · intro e he
        rw [List.mem_singleton.1 he, h.inv.key _ _ hg0]
        exact hg0
      · intro y
        rw [h3, List.map_cons, List.map_nil, h.inv.key _ _ hg0]
        by_cases hy : m = y
        · rw [if_pos hy, if_pos (List.mem_singleton.2 hy.symm)]
        · rw [if_neg hy, if_neg (fun hh => hy (List.mem_singleton.1 hh).symm)]
  | portDown p =>
    obtain ⟨v', h1, h2, h3⟩ := portDown_spec h.inv p
    unfold step at hs
    dsimp only at hs
    rw [h1] at hs
    cases hs
    exact h.mk' h2 rfl rfl (fun n hn => ⟨(mark_false hn).2, removed_same (fun e he => onPort_mem h.inv he) h3 hn⟩)
  | sweep a b =>
    obtain ⟨v', h1, h2, h3⟩ := sweep_spec' h.inv a b
    unfold step at hs
    dsimp only at hs
    rw [h1] at hs
    cases hs
    exact h.mk' h2 rfl rfl (fun n hn => ⟨(mark_false hn).2, removed_same (fun e he => expired_mem h.inv he) h3 hn⟩)
  | delVlan =>
    cases hs
    exact ⟨HostCache.inv_reset _, fun n hn => (by cases hn), h.zero⟩
  | coldStart =>
    cases hs
    exact ⟨HostCache.inv_reset _, fun n hn => (by cases hn), h.zero⟩
  | reload => exact hq.elim
  | update ps =>
    cases hs
    exact (update_minv ho ps (s := { s with total := HostCache.hostsCount s.cache }) ⟨h.inv, h.listed, h.zero⟩).1

/-- **C75.** If no host has moved from one port to another and the configuration has not changed, then after an update `learned_macs`
of each updated port lists exactly the hosts that FAUCET knows there: each once, numbered from 0, and 0 from there on. -/
theorem learned_macs_right_partial {order : List Entry → List Entry} (ho : ∀ l, (order l).Perm l) (es : List Ev) (ps : List Port)
    (hq : AllQuiet order {} es) :
    ∃ s, run order {} (es ++ [.update ps]) = some s ∧
      ∀ p ∈ ps, ∃ l : List Nat, l.Nodup ∧ (∀ m, m ∈ l ↔ Knows s m p.number) ∧ ∀ i, s.macs p.number i = l.getD i 0 := by
  have : ∀ (es : List Ev) (s : St), MInv s → AllQuiet order s es → ∃ s1, MInv s1 ∧
      run order s (es ++ [.update ps]) = step order s1 (.update ps) := by
    intro es
    induction es with
    | nil =>
      intro s h _
      refine ⟨s, h, ?_⟩
      show (step order s (.update ps)).bind _ = _
      rfl
    | cons e es ih =>
      intro s h ⟨h1, h2⟩
      obtain ⟨s1, hs1, -⟩ := cache_step (order := order) h.inv e
      obtain ⟨s2, h3, h4⟩ := ih s1 (minv_step ho h h1 hs1) (h2 s1 hs1)
      refine ⟨s2, h3, ?_⟩
      show (step order s e).bind _ = _
      rw [hs1]
      exact h4
  obtain ⟨s1, h1, h2⟩ := this es {} ⟨HostCache.inv_init, fun n hn => (by cases hn), fun _ _ _ => rfl⟩ hq
  obtain ⟨h3, h4, -⟩ := update_minv ho ps (s := { s1 with total := HostCache.hostsCount s1.cache }) ⟨h1.inv, h1.listed, h1.zero⟩
  refine ⟨_, h2, fun p hp => ?_⟩
  obtain ⟨l, hl, -, hm⟩ := h3.listed _ (h4 p hp)
  refine ⟨l, hl.nodup_iff.2 (h3.inv.nodupPort _), fun m => ?_, hm⟩
  rw [hl.mem_iff]
  exact mem_macsOn h3.inv

/-! ## Findings -/

/-- Hosts that change places are shown on the ports they have left. Only the ports of new and of removed hosts are marked for the
metrics, and a port that is not marked is shown again only if its number of hosts has changed. If two hosts swap their ports between
two updates, `learned_macs` goes on showing each on its old port, while `learned_l2_port` shows the new ones. -/
theorem moved_hosts_metric_defect : ∃ (a b : Port) (s : St),
    run id {} [.learn 7 a 0, .learn 8 b 0, .update [a, b], .learn 7 b 1, .learn 8 a 1, .update [a, b]] = some s ∧
    Knows s 7 b.number ∧ Knows s 8 a.number ∧ s.macs a.number 0 = 7 ∧ s.macs b.number 0 = 8 ∧ s.l2port 7 = some b.number ∧ a.number ≠ b.number :=
  ⟨{ number := 1 }, { number := 2 }, _, rfl, ⟨_, rfl, rfl⟩, ⟨_, rfl, rfl⟩, rfl, rfl, rfl, by decide⟩

/-- `learned_macs` keeps hosts from before a change of the configuration. FAUCET then forgets both the hosts and how many it had shown,
so the old values are not overwritten by 0. A host that has gone stays on show although the number of hosts shown is 0. -/
theorem reload_stale_macs_defect : ∃ (a : Port) (s : St),
    run id {} [.learn 7 a 0, .update [a], .reload, .update [a]] = some s ∧
    (∀ n, ¬ Knows s 7 n) ∧ s.count a.number = 0 ∧ s.macs a.number 0 = 7 :=
  ⟨{ number := 1 }, _, rfl, (fun n => by rintro ⟨e, he, -⟩; cases he), rfl, rfl⟩

/-- `learned_l2_port` keeps hosts that FAUCET no longer knows. It is removed when a port goes down, a host times out in FAUCET or a
VLAN is deleted, but not when the switch reports that a host's rule has timed out, nor when the switch connects again. -/
theorem l2_port_stale_defect : ∃ (a : Port) (s s' : St),
    run id {} [.learn 7 a 0, .ruleExpired 7 a] = some s ∧ run id {} [.learn 7 a 0, .coldStart] = some s' ∧
    (∀ n, ¬ Knows s 7 n) ∧ (∀ n, ¬ Knows s' 7 n) ∧ s.l2port 7 = some a.number ∧ s'.l2port 7 = some a.number :=
  ⟨{ number := 1 }, _, _, rfl, rfl, (fun n => by rintro ⟨e, he, -⟩; cases he), (fun n => by rintro ⟨e, he, -⟩; cases he), rfl, rfl⟩

end Faucet.Metrics
