import Verif.HostCache.Spec

namespace Faucet.HostCache

/-- The hosts the per-port index holds for a port number. -/
def onPort (v : Vlan) (n : Nat) : List Entry := (v.byPort.get? n).getD []

/-- Consistency of the two indices. -/
structure Inv (v : Vlan) : Prop where
  nodup : (v.hostCache.keys).Nodup
  key : ∀ m e, v.hostCache.get? m = some e → e.ethSrc = m
  index : ∀ n e, e ∈ onPort v n ↔ (v.hostCache.get? e.ethSrc = some e ∧ e.port.number = n)
  nodupPort : ∀ n, ((onPort v n).map (·.ethSrc)).Nodup

theorem inv_init : Inv {} := by
  constructor <;> simp [Dict.keys, onPort]

theorem inv_reset (v : Vlan) : Inv (resetCaches v) := by
  constructor <;> simp [Dict.keys, onPort, resetCaches]

/-- Dropping a host from the map and its port's set. -/
def dropHost (v : Vlan) (m : Nat) (e : Entry) : Vlan :=
  { v with
    byPort := v.byPort.set e.port.number ((onPort v e.port.number).filter (fun x => x.key != e.key))
    hostCache := v.hostCache.del m }

theorem onPort_get {v : Vlan} {n : Nat} {e : Entry} (h : e ∈ onPort v n) :
    v.byPort.get? n = some (onPort v n) := by
  unfold onPort at *
  cases hg : v.byPort.get? n <;> simp_all

theorem setRemove_some {s : List Entry} {e : Entry} (h : e ∈ s) :
    setRemove s e = some (s.filter (fun x => x.key != e.key)) := by
  unfold setRemove
  rw [if_pos]
  simp; exact ⟨e, h, rfl⟩

theorem expireCacheHost_eq {v : Vlan} (hi : Inv v) (m : Nat) :
    expireCacheHost v m = some (match v.hostCache.get? m with
      | none => v
      | some e => dropHost v m e) := by
  unfold expireCacheHost cachedHost
  cases hg : v.hostCache.get? m with
  | none => rfl
  | some e =>
    have hk := hi.key m e hg
    have hm : e ∈ onPort v e.port.number := (hi.index _ _).2 ⟨by rw [hk]; exact hg, rfl⟩
    simp [onPort_get hm, setRemove_some hm, dropHost]

theorem mem_filter_key {v : Vlan} (hi : Inv v) {e x : Entry} {n : Nat}
    (he : v.hostCache.get? e.ethSrc = some e) :
    x ∈ (onPort v n).filter (fun x => x.key != e.key) ↔ x ∈ onPort v n ∧ x.ethSrc ≠ e.ethSrc := by
  simp only [List.mem_filter, bne_iff_ne, ne_eq, Entry.key, Prod.mk.injEq, not_and]
  constructor
  · rintro ⟨h1, h2⟩
    refine ⟨h1, fun heq => ?_⟩
    have := (hi.index _ _).1 h1
    have hxe : x = e := by
      have h3 := this.1; rw [heq, he] at h3; exact (Option.some.inj h3).symm
    exact h2 heq (by rw [hxe])
  · rintro ⟨h1, h2⟩
    exact ⟨h1, fun h => absurd h h2⟩

theorem inv_dropHost {v : Vlan} (hi : Inv v) {m : Nat} {e : Entry} (hg : v.hostCache.get? m = some e) :
    Inv (dropHost v m e) := by
  have hk := hi.key m e hg
  have he : v.hostCache.get? e.ethSrc = some e := by rw [hk]; exact hg
  constructor
  · exact Dict.nodup_keys_del hi.nodup m
  · intro m' e' h
    simp only [dropHost, Dict.get?_del] at h
    split at h
    · cases h
    · exact hi.key _ _ h
  · intro n x
    have hon : onPort (dropHost v m e) n =
        if e.port.number = n then (onPort v n).filter (fun x => x.key != e.key) else onPort v n := by
      unfold onPort dropHost
      simp only [Dict.get?_set]
      split
      · rename_i h; subst h; simp [onPort]
      · rfl
    rw [hon]
    simp only [dropHost, Dict.get?_del]
    split
    · rename_i h
      rw [mem_filter_key hi he, hi.index]
      rw [← hk]
      by_cases hx : e.ethSrc = x.ethSrc
      · simp [hx]
      · simp [hx, Ne.symm hx]
    · rename_i h
      rw [hi.index, ← hk]
      by_cases hx : e.ethSrc = x.ethSrc
      · simp only [hx, if_true]
        constructor
        · rintro ⟨h1, h2⟩
          rw [← hx, he] at h1
          have : e = x := Option.some.inj h1
          exact absurd (this ▸ h2) h
        · simp
      · simp [hx]
  · intro n
    have hon : onPort (dropHost v m e) n =
        if e.port.number = n then (onPort v n).filter (fun x => x.key != e.key) else onPort v n := by
      unfold onPort dropHost
      simp only [Dict.get?_set]
      split
      · rename_i h; subst h; simp [onPort]
      · rfl
    rw [hon]
    split
    · exact (hi.nodupPort n).sublist (List.Sublist.map _ List.filter_sublist)
    · exact hi.nodupPort n

theorem expire_spec {v : Vlan} (hi : Inv v) (m : Nat) :
    ∃ v', expireCacheHost v m = some v' ∧ Inv v' ∧ v'.oldest = v.oldest ∧
      (∀ x, v'.hostCache.get? x = if m = x then none else v.hostCache.get? x) ∧
      (∀ x e, (x, e) ∈ v'.hostCache → (x, e) ∈ v.hostCache) := by
  rw [expireCacheHost_eq hi]
  cases hg : v.hostCache.get? m with
  | none =>
    refine ⟨v, rfl, hi, rfl, ?_, fun _ _ h => h⟩
    intro x; split
    · rename_i h; subst h; exact hg
    · rfl
  | some e =>
    refine ⟨_, rfl, inv_dropHost hi hg, rfl, ?_, ?_⟩
    · intro x; simp [dropHost, Dict.get?_del]
    · intro x e h; simp [dropHost, Dict.del] at h; exact h.1

theorem expireAll_spec (es : List Entry) : ∀ {v : Vlan}, Inv v →
    ∃ v', expireAll v es = some v' ∧ Inv v' ∧ v'.oldest = v.oldest ∧
      (∀ x, v'.hostCache.get? x = if x ∈ es.map (·.ethSrc) then none else v.hostCache.get? x) ∧
      (∀ x e, (x, e) ∈ v'.hostCache → (x, e) ∈ v.hostCache) := by
  induction es with
  | nil => intro v hi; exact ⟨v, rfl, hi, rfl, by simp, fun _ _ h => h⟩
  | cons e es ih =>
    intro v hi
    obtain ⟨v1, h1, hi1, ho1, hg1, hs1⟩ := expire_spec hi e.ethSrc
    obtain ⟨v2, h2, hi2, ho2, hg2, hs2⟩ := ih hi1
    refine ⟨v2, by simp [expireAll, h1, h2], hi2, by rw [ho2, ho1], ?_, fun x y h => hs1 _ _ (hs2 _ _ h)⟩
    intro x
    rw [hg2, hg1]
    by_cases hx : x ∈ es.map (·.ethSrc)
    · simp [hx]
    · by_cases hxe : e.ethSrc = x
      · simp [hxe]
      · simp [hx, hxe, Ne.symm hxe]

/-- State just after `add_cache_host` removed an existing entry and before it adds the new one
(lines 326-328): only the per-port index changed. -/
theorem add_spec {v : Vlan} (hi : Inv v) (m : Nat) (p : Port) (t : Int) :
    ∃ v', addCacheHost v m p t = some v' ∧ Inv v' ∧ v'.oldest = v.oldest ∧
      (∀ x, v'.hostCache.get? x = if m = x then some ⟨m, p, t⟩ else v.hostCache.get? x) ∧
      (v'.hostCache = v.hostCache.set m ⟨m, p, t⟩) := by
  -- the per-port index after removal
  have hby : ∃ bp : Dict Nat (List Entry),
      unlinkOld v m = some bp ∧
      (∀ n x, x ∈ (bp.get? n).getD [] ↔ x ∈ onPort v n ∧ x.ethSrc ≠ m) ∧
      (∀ n, (((bp.get? n).getD []).map (·.ethSrc)).Nodup) := by
    unfold unlinkOld
    cases hg : cachedHost v m with
    | none =>
      refine ⟨v.byPort, rfl, ?_, hi.nodupPort⟩
      intro n x
      constructor
      · intro h
        refine ⟨h, fun hx => ?_⟩
        have := ((hi.index n x).1 h).1
        rw [hx] at this; unfold cachedHost at hg; rw [hg] at this; cases this
      · exact fun h => h.1
    | some e =>
      unfold cachedHost at hg
      have hk := hi.key m e hg
      have he : v.hostCache.get? e.ethSrc = some e := by rw [hk]; exact hg
      have hm : e ∈ onPort v e.port.number := (hi.index _ _).2 ⟨he, rfl⟩
      refine ⟨v.byPort.set e.port.number ((onPort v e.port.number).filter (fun x => x.key != e.key)),
        by simp [onPort_get hm, setRemove_some hm], ?_, ?_⟩
      · intro n x
        rw [Dict.get?_set]
        split
        · rename_i h; subst h
          simp only [Option.getD_some]
          rw [mem_filter_key hi he, hk]
        · rename_i h
          constructor
          · intro hx
            refine ⟨hx, fun hxm => ?_⟩
            have h3 := (hi.index n x).1 hx
            rw [hxm, ← hk, he] at h3
            exact h ((Option.some.inj h3.1) ▸ h3.2)
          · exact fun hx => hx.1
      · intro n
        rw [Dict.get?_set]
        split
        · rename_i h; subst h
          exact (hi.nodupPort _).sublist (List.Sublist.map _ List.filter_sublist)
        · exact hi.nodupPort n
  obtain ⟨bp, hbp, hmem, hnd⟩ := hby
  have hnotin : ∀ n, (⟨m, p, t⟩ : Entry).ethSrc ∉ ((bp.get? n).getD []).map (·.ethSrc) := by
    intro n hx
    obtain ⟨x, hx1, hx2⟩ := List.mem_map.1 hx
    exact ((hmem n x).1 hx1).2 hx2
  have hadd : setAdd ((bp.get? p.number).getD []) ⟨m, p, t⟩ = (bp.get? p.number).getD [] ++ [⟨m, p, t⟩] := by
    unfold setAdd
    rw [if_neg]
    simp only [List.any_eq_true, beq_iff_eq, Entry.key, Prod.mk.injEq, not_exists, not_and]
    intro x hx h1
    exact absurd h1 ((hmem _ _).1 hx).2
  refine ⟨{ v with byPort := bp.set p.number ((bp.get? p.number).getD [] ++ [⟨m, p, t⟩]), hostCache := v.hostCache.set m ⟨m, p, t⟩ },
    ?_, ?_, rfl, ?_, rfl⟩
  · unfold addCacheHost
    rw [hbp]
    simp only [Option.bind_eq_bind, Option.bind_some, ← hadd]
    cases bp.get? p.number <;> rfl
  · constructor
    · exact Dict.nodup_keys_set hi.nodup _ _
    · intro m' e' h
      simp only [Dict.get?_set] at h
      split at h
      · rename_i hm; cases h; exact hm
      · exact hi.key _ _ h
    · intro n x
      have hon : onPort { v with byPort := bp.set p.number ((bp.get? p.number).getD [] ++ [⟨m, p, t⟩]), hostCache := v.hostCache.set m ⟨m, p, t⟩ } n
          = if p.number = n then (bp.get? n).getD [] ++ [⟨m, p, t⟩] else (bp.get? n).getD [] := by
        unfold onPort; simp only [Dict.get?_set]; split
        · rename_i h; subst h; rfl
        · rfl
      rw [hon]
      simp only [Dict.get?_set]
      by_cases hx : m = x.ethSrc
      · rw [if_pos hx]
        constructor
        · intro h
          have : x = ⟨m, p, t⟩ ∧ p.number = n := by
            split at h
            · rename_i hp
              rcases List.mem_append.1 h with h | h
              · exact absurd hx.symm ((hmem _ _).1 h).2
              · exact ⟨by simpa using h, hp⟩
            · exact absurd hx.symm ((hmem _ _).1 h).2
          exact ⟨by rw [this.1], by rw [this.1]; exact this.2⟩
        · rintro ⟨h1, h2⟩
          have hxe : (⟨m, p, t⟩ : Entry) = x := Option.some.inj h1
          subst hxe
          simp only at h2
          simp [h2]
      · rw [if_neg hx, ← hi.index]
        split
        · rw [List.mem_append, hmem]
          constructor
          · rintro (h | h)
            · exact h.1
            · simp at h; subst h; simp at hx
          · exact fun h => Or.inl ⟨h, Ne.symm hx⟩
        · rw [hmem]; exact ⟨fun h => h.1, fun h => ⟨h, Ne.symm hx⟩⟩
    · intro n
      have hon : onPort { v with byPort := bp.set p.number ((bp.get? p.number).getD [] ++ [⟨m, p, t⟩]), hostCache := v.hostCache.set m ⟨m, p, t⟩ } n
          = if p.number = n then (bp.get? n).getD [] ++ [⟨m, p, t⟩] else (bp.get? n).getD [] := by
        unfold onPort; simp only [Dict.get?_set]; split
        · rename_i h; subst h; rfl
        · rfl
      rw [hon]
      split
      · rw [List.map_append, List.nodup_append]
        refine ⟨hnd n, by simp, ?_⟩
        intro a ha b hb
        simp at hb
        intro hab
        rw [hab, hb] at ha
        exact hnotin n ha
      · exact hnd n
  · intro x; simp [Dict.get?_set]

theorem cachedHostsOnPort_eq (v : Vlan) (p : Port) : cachedHostsOnPort v p = onPort v p.number := by
  unfold cachedHostsOnPort onPort; cases v.byPort.get? p.number <;> rfl

theorem cachedHostsCountOnPort_eq (v : Vlan) (p : Port) :
    cachedHostsCountOnPort v p = (cachedHostsOnPort v p).length := by
  unfold cachedHostsCountOnPort cachedHostsOnPort; cases v.byPort.get? p.number <;> rfl

theorem mem_expired {v : Vlan} (hi : Inv v) (mct : Int) (x : Nat) :
    x ∈ (v.hostCache.values.filter
      (fun e => decide (e.cacheTime < mct) && !e.port.permanentLearn)).map (·.ethSrc) ↔
    ∃ e, v.hostCache.get? x = some e ∧ e.cacheTime < mct ∧ e.port.permanentLearn = false := by
  simp only [List.mem_map, List.mem_filter, Dict.mem_values, Bool.and_eq_true, decide_eq_true_eq,
    Bool.not_eq_true']
  constructor
  · rintro ⟨e, ⟨⟨k, hk⟩, h1, h2⟩, rfl⟩
    have hg := Dict.get?_of_mem hi.nodup hk
    have := hi.key _ _ hg
    exact ⟨e, by rw [this]; exact hg, h1, h2⟩
  · rintro ⟨e, hg, h1, h2⟩
    exact ⟨e, ⟨⟨x, Dict.mem_of_get? hg⟩, h1, h2⟩, hi.key _ _ hg⟩

theorem sweep_spec {v : Vlan} (hi : Inv v) (now timeout : Int) :
    ∃ ex v', expireCacheHosts v now timeout = some (ex, v') ∧ Inv v' ∧
      (if due v now timeout then
        ex = v.hostCache.values.filter
          (fun e => decide (e.cacheTime < now - timeout) && !e.port.permanentLearn) ∧
        v'.oldest = some (newOldest v' now) ∧
        (∀ x, v'.hostCache.get? x =
          if ∃ e, v.hostCache.get? x = some e ∧ e.cacheTime < now - timeout ∧ e.port.permanentLearn = false
          then none else v.hostCache.get? x)
       else ex = [] ∧ v' = v) := by
  unfold expireCacheHosts
  by_cases hd : due v now timeout
  · obtain ⟨v2, h2, hi2, ho2, hg2, hs2⟩ := expireAll_spec
      (v.hostCache.values.filter (fun e => decide (e.cacheTime < now - timeout) && !e.port.permanentLearn)) hi
    refine ⟨v.hostCache.values.filter (fun e => decide (e.cacheTime < now - timeout) && !e.port.permanentLearn),
      { v2 with oldest := some (newOldest v2 now) }, ?_, ?_, ?_⟩
    · simp only [hd, if_true, h2]; rfl
    · exact ⟨hi2.nodup, hi2.key, hi2.index, hi2.nodupPort⟩
    · rw [if_pos hd]
      refine ⟨rfl, rfl, ?_⟩
      intro x
      simp only [hg2]
      by_cases hx : ∃ e, v.hostCache.get? x = some e ∧ e.cacheTime < now - timeout ∧ e.port.permanentLearn = false
      · rw [if_pos ((mem_expired hi _ x).2 hx), if_pos hx]
      · rw [if_neg (fun h => hx ((mem_expired hi _ x).1 h)), if_neg hx]
  · refine ⟨[], v, ?_, hi, ?_⟩
    · simp [hd]
    · rw [if_neg hd]; exact ⟨rfl, rfl⟩

theorem step_inv {v : Vlan} (hi : Inv v) (op : Op) : ∃ v', step v op = some v' ∧ Inv v' := by
  cases op with
  | learn m p t => obtain ⟨v', h, h2, _⟩ := add_spec hi m p t; exact ⟨v', h, h2⟩
  | forget m => obtain ⟨v', h, h2, _⟩ := expire_spec hi m; exact ⟨v', h, h2⟩
  | clearPort p =>
    obtain ⟨v', h, h2, _⟩ := expireAll_spec (cachedHostsOnPort v p) hi; exact ⟨v', h, h2⟩
  | sweep now timeout =>
    obtain ⟨ex, v', h, h2, _⟩ := sweep_spec hi now timeout
    exact ⟨v', by simp [step, h], h2⟩
  | coldStart => exact ⟨_, rfl, inv_reset v⟩

theorem run_inv (ops : List Op) : ∀ {v : Vlan}, Inv v → ∃ v', run v ops = some v' ∧ Inv v' := by
  induction ops with
  | nil => intro v hi; exact ⟨v, rfl, hi⟩
  | cons op ops ih =>
    intro v hi
    obtain ⟨v1, h1, hi1⟩ := step_inv hi op
    obtain ⟨v2, h2, hi2⟩ := ih hi1
    exact ⟨v2, by simp [run, h1, h2], hi2⟩

theorem run_append (ops ops2 : List Op) (v : Vlan) :
    run v (ops ++ ops2) = (run v ops).bind (fun v' => run v' ops2) := by
  induction ops generalizing v with
  | nil => rfl
  | cons op ops ih =>
    simp only [List.cons_append, run]
    cases step v op with
    | none => rfl
    | some v1 => exact ih v1

theorem minTime_le (ts : List Int) : ∀ (t : Int), minTime t ts ≤ t ∧ ∀ x ∈ ts, minTime t ts ≤ x := by
  induction ts with
  | nil => intro t; simp [minTime]
  | cons a ts ih =>
    intro t
    have h := ih (min t a)
    unfold minTime at h ⊢
    simp only [List.foldl_cons, List.mem_cons, forall_eq_or_imp]
    refine ⟨?_, ?_, h.2⟩ <;> omega

theorem newOldest_le (v : Vlan) (now : Int) (m : Nat) (e : Entry) (h : v.hostCache.get? m = some e) :
    newOldest v now ≤ e.cacheTime := by
  have hm := Dict.mem_of_get? h
  have : e.cacheTime ∈ v.hostCache.values.map (·.cacheTime) :=
    List.mem_map.2 ⟨e, (Dict.mem_values).2 ⟨m, hm⟩, rfl⟩
  unfold newOldest
  cases hl : v.hostCache.values.map (·.cacheTime) with
  | nil => rw [hl] at this; cases this
  | cons t ts =>
    rw [hl] at this
    rcases List.mem_cons.1 this with h | h
    · rw [h]; exact (minTime_le ts t).1
    · exact (minTime_le ts t).2 _ h

theorem minTime_mem (ts : List Int) : ∀ t, minTime t ts = t ∨ minTime t ts ∈ ts := by
  induction ts with
  | nil => intro t; simp [minTime]
  | cons a ts ih =>
    intro t
    have h := ih (min t a)
    unfold minTime at h ⊢
    simp only [List.foldl_cons, List.mem_cons]
    grind

theorem newOldest_cases (v : Vlan) (now : Int) :
    newOldest v now = now ∨ ∃ m e, (m, e) ∈ v.hostCache ∧ e.cacheTime = newOldest v now := by
  unfold newOldest
  cases hl : v.hostCache.values.map (·.cacheTime) with
  | nil => left; rfl
  | cons t ts =>
    right
    have : minTime t ts ∈ v.hostCache.values.map (·.cacheTime) := by
      rw [hl]; rcases minTime_mem ts t with h | h
      · rw [h]; simp
      · exact List.mem_cons_of_mem _ h
    obtain ⟨e, he, ht⟩ := List.mem_map.1 this
    obtain ⟨k, hk⟩ := Dict.mem_values.1 he
    exact ⟨k, e, hk, ht⟩

/-- With a clock at `T`: nothing is in the future and the "oldest" shortcut is a lower bound. -/
structure TInv (v : Vlan) (T : Option Int) : Prop where
  inv : Inv v
  past : ∀ m e, v.hostCache.get? m = some e → ∃ t, T = some t ∧ e.cacheTime ≤ t
  oldPast : ∀ o, v.oldest = some o → ∃ t, T = some t ∧ o ≤ t
  lower : ∀ o m e, v.oldest = some o → v.hostCache.get? m = some e → o ≤ e.cacheTime

/-- The abstraction map. -/
def abs (v : Vlan) : HostMap := fun m => (v.hostCache.get? m).map (fun e => (e.port, e.cacheTime))

/-- Clock after an operation. -/
def clock (T : Option Int) (op : Op) : Option Int :=
  match op.time? with
  | some t => some t
  | none => T

theorem not_due_fresh {v : Vlan} {T : Option Int} (ht : TInv v T) {now timeout : Int}
    (hd : due v now timeout = false) (m : Nat) (e : Entry) (hg : v.hostCache.get? m = some e) :
    now - timeout ≤ e.cacheTime := by
  unfold due at hd
  cases ho : v.oldest with
  | none => simp [ho] at hd
  | some o =>
    simp [ho] at hd
    have := ht.lower o m e ho hg
    omega

theorem step_tinv {v : Vlan} {T : Option Int} (ht : TInv v T) (op : Op)
    (hmono : ∀ t t', T = some t → op.time? = some t' → t ≤ t') :
    ∃ v', step v op = some v' ∧ TInv v' (clock T op) ∧ abs v' = specStep (abs v) op := by
  have hi := ht.inv
  cases op with
  | learn m p t =>
    obtain ⟨v', h, hi', ho, hg, _⟩ := add_spec hi m p t
    have hle : ∀ t', T = some t' → t' ≤ t := fun t' h => hmono t' t h rfl
    refine ⟨v', h, ⟨hi', ?_, ?_, ?_⟩, ?_⟩
    · intro x e hx
      rw [hg] at hx
      split at hx
      · cases hx; exact ⟨t, rfl, Int.le_refl _⟩
      · obtain ⟨t', h1, h2⟩ := ht.past x e hx
        exact ⟨t, rfl, by have := hle t' h1; omega⟩
    · intro o hoo
      rw [ho] at hoo
      obtain ⟨t', h1, h2⟩ := ht.oldPast o hoo
      exact ⟨t, rfl, by have := hle t' h1; omega⟩
    · intro o x e hoo hx
      rw [ho] at hoo; rw [hg] at hx
      split at hx
      · cases hx
        obtain ⟨t', h1, h2⟩ := ht.oldPast o hoo
        have := hle t' h1; simp; omega
      · exact ht.lower o x e hoo hx
    · funext x
      simp only [abs, specStep, hg]
      by_cases hx : m = x
      · simp [hx]
      · simp [hx, Ne.symm hx]
  | forget m =>
    obtain ⟨v', h, hi', ho, hg, _⟩ := expire_spec hi m
    have hsub : ∀ x e, v'.hostCache.get? x = some e → v.hostCache.get? x = some e := by
      intro x e hx; rw [hg] at hx; split at hx
      · cases hx
      · exact hx
    refine ⟨v', h, ⟨hi', fun x e hx => ht.past x e (hsub x e hx), fun o h => ht.oldPast o (ho ▸ h),
      fun o x e h1 h2 => ht.lower o x e (ho ▸ h1) (hsub x e h2)⟩, ?_⟩
    funext x
    simp only [abs, specStep, hg]
    by_cases hx : m = x
    · simp [hx]
    · simp [hx, Ne.symm hx]
  | clearPort p =>
    obtain ⟨v', h, hi', ho, hg, _⟩ := expireAll_spec (cachedHostsOnPort v p) hi
    have hsub : ∀ x e, v'.hostCache.get? x = some e → v.hostCache.get? x = some e := by
      intro x e hx; rw [hg] at hx; split at hx
      · cases hx
      · exact hx
    refine ⟨v', h, ⟨hi', fun x e hx => ht.past x e (hsub x e hx), fun o h => ht.oldPast o (ho ▸ h),
      fun o x e h1 h2 => ht.lower o x e (ho ▸ h1) (hsub x e h2)⟩, ?_⟩
    funext x
    simp only [abs, specStep, hg]
    rw [cachedHostsOnPort_eq]
    cases hgx : v.hostCache.get? x with
    | none => simp
    | some e =>
      have hk := hi.key x e hgx
      by_cases hp : e.port.number = p.number
      · have : x ∈ (onPort v p.number).map (·.ethSrc) :=
          List.mem_map.2 ⟨e, (hi.index _ _).2 ⟨by rw [hk]; exact hgx, hp⟩, hk⟩
        simp [this, Option.filter, hp]
      · have : x ∉ (onPort v p.number).map (·.ethSrc) := by
          intro hx
          obtain ⟨y, hy, hyx⟩ := List.mem_map.1 hx
          have := (hi.index _ _).1 hy
          rw [hyx, hgx] at this
          have hye := Option.some.inj this.1
          exact hp (hye ▸ this.2)
        rw [if_neg this]; simp [Option.filter, hp]
  | sweep now timeout =>
    obtain ⟨ex, v', h, hi', hif⟩ := sweep_spec hi now timeout
    have hle : ∀ t', T = some t' → t' ≤ now := fun t' h => hmono t' now h rfl
    by_cases hd : due v now timeout
    · rw [if_pos hd] at hif
      obtain ⟨_, ho, hg⟩ := hif
      have hsub : ∀ x e, v'.hostCache.get? x = some e → v.hostCache.get? x = some e := by
        intro x e hx; rw [hg] at hx; split at hx
        · cases hx
        · exact hx
      refine ⟨v', by simp [step, h], ⟨hi', ?_, ?_, ?_⟩, ?_⟩
      · intro x e hx
        obtain ⟨t', h1, h2⟩ := ht.past x e (hsub x e hx)
        exact ⟨now, rfl, by have := hle t' h1; omega⟩
      · intro o hoo
        rw [ho] at hoo
        refine ⟨now, rfl, ?_⟩
        have := Option.some.inj hoo
        rcases newOldest_cases v' now with h1 | ⟨m, e, h1, h2⟩
        · omega
        · have hge := Dict.get?_of_mem hi'.nodup h1
          obtain ⟨t', h3, h4⟩ := ht.past m e (hsub m e hge)
          have := hle t' h3; omega
      · intro o x e hoo hx
        rw [ho] at hoo
        have := Option.some.inj hoo
        have := newOldest_le v' now x e hx
        omega
      · funext x
        simp only [abs, specStep, hg]
        cases hgx : v.hostCache.get? x with
        | none => simp
        | some e =>
          by_cases hc : e.cacheTime < now - timeout ∧ e.port.permanentLearn = false
          · rw [if_pos ⟨e, rfl, hc⟩]
            have : ¬ (now - timeout ≤ e.cacheTime) := by omega
            simp [Option.filter, hc.2, this]
          · rw [if_neg (by rintro ⟨e', h1, h2⟩; cases h1; exact hc h2)]
            by_cases hp : e.port.permanentLearn
            · simp [Option.filter, hp]
            · have : now - timeout ≤ e.cacheTime := by
                simp [hp] at hc; exact hc
              simp [Option.filter, this]
    · rw [if_neg hd] at hif
      obtain ⟨_, rfl⟩ := hif
      refine ⟨v', by simp [step, h], ⟨hi', ?_, ?_, ht.lower⟩, ?_⟩
      · intro x e hx
        obtain ⟨t', h1, h2⟩ := ht.past x e hx
        exact ⟨now, rfl, by have := hle t' h1; omega⟩
      · intro o hoo
        obtain ⟨t', h1, h2⟩ := ht.oldPast o hoo
        exact ⟨now, rfl, by have := hle t' h1; omega⟩
      · funext x
        simp only [abs, specStep]
        cases hgx : v'.hostCache.get? x with
        | none => simp
        | some e =>
          have := not_due_fresh ht (by simpa using hd) x e hgx
          simp [Option.filter, this]
  | coldStart =>
    refine ⟨resetCaches v, rfl, ⟨inv_reset v, ?_, ht.oldPast, ?_⟩, ?_⟩
    · intro x e hx; simp [resetCaches] at hx
    · intro o x e _ hx; simp [resetCaches] at hx
    · funext x; simp [abs, specStep, resetCaches]

theorem tinv_init : TInv {} none := by
  constructor
  · exact inv_init
  all_goals simp

theorem run_tinv (ops : List Op) : ∀ {v : Vlan} {T : Option Int}, TInv v T →
    (∀ t t', T = some t → t' ∈ ops.filterMap Op.time? → t ≤ t') → Monotone ops →
    ∃ v' T', run v ops = some v' ∧ TInv v' T' ∧ abs v' = ops.foldl specStep (abs v) := by
  induction ops with
  | nil => intro v T ht _ _; exact ⟨v, T, rfl, ht, rfl⟩
  | cons op ops ih =>
    intro v T ht hb hm
    have hm' : Monotone ops := by
      unfold Monotone at *
      simp only [List.filterMap_cons] at hm
      split at hm
      · exact hm
      · exact (List.pairwise_cons.1 hm).2
    have hstep : ∀ t t', T = some t → op.time? = some t' → t ≤ t' := by
      intro t t' h1 h2
      apply hb t t' h1
      simp [List.filterMap_cons, h2]
    obtain ⟨v1, h1, ht1, ha1⟩ := step_tinv ht op hstep
    have hb1 : ∀ t t', clock T op = some t → t' ∈ ops.filterMap Op.time? → t ≤ t' := by
      intro t t' hc hin
      unfold clock at hc
      cases ho : op.time? with
      | none =>
        simp [ho] at hc
        apply hb t t' hc
        simp only [List.filterMap_cons, ho]; exact hin
      | some t2 =>
        simp [ho] at hc
        subst hc
        unfold Monotone at hm
        simp only [List.filterMap_cons, ho] at hm
        exact (List.pairwise_cons.1 hm).1 t' hin
    obtain ⟨v2, T2, h2, ht2, ha2⟩ := ih ht1 hb1 hm'
    refine ⟨v2, T2, by simp [run, h1, h2], ht2, ?_⟩
    rw [ha2, ha1]; rfl

end Faucet.HostCache
