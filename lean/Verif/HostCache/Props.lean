import Verif.HostCache.Lemmas

/-!
# Property theorems: learned-host table (C01, C02)
-/

namespace Faucet.HostCache

/-- **C01 (consistency).** After any history, with any clock, the code never raises; every known host is
on exactly one port; the hosts reported on a port are exactly the MACs whose table entry names that port,
each once; and both counts are the sizes of those sets. -/
theorem host_table_consistent (ops : List Op) :
    ∃ v, run {} ops = some v ∧
      -- hosts reported on a port = MACs whose entry names that port
      (∀ (p : Port) (m : Nat), m ∈ (cachedHostsOnPort v p).map (·.ethSrc) ↔
        ∃ e, cachedHost v m = some e ∧ e.port.number = p.number) ∧
      -- no host is reported twice, so the reported count is the number of hosts
      (∀ p : Port, ((cachedHostsOnPort v p).map (·.ethSrc)).Nodup ∧
        cachedHostsCountOnPort v p = (cachedHostsOnPort v p).length) ∧
      -- a host is on at most one port
      (∀ (p q : Port) (m : Nat), m ∈ (cachedHostsOnPort v p).map (·.ethSrc) →
        m ∈ (cachedHostsOnPort v q).map (·.ethSrc) → p.number = q.number) ∧
      -- the VLAN count is the number of known MACs
      (∃ macs : List Nat, macs.Nodup ∧ (∀ m, m ∈ macs ↔ (cachedHost v m).isSome) ∧
        hostsCount v = macs.length) := by
  obtain ⟨v, hr, hi⟩ := run_inv ops inv_init
  have hmem : ∀ (p : Port) (m : Nat), m ∈ (cachedHostsOnPort v p).map (·.ethSrc) ↔
      ∃ e, cachedHost v m = some e ∧ e.port.number = p.number := by
    intro p m
    rw [cachedHostsOnPort_eq]
    constructor
    · intro h
      obtain ⟨e, he, rfl⟩ := List.mem_map.1 h
      have := (hi.index _ _).1 he
      exact ⟨e, this.1, this.2⟩
    · rintro ⟨e, he, hp⟩
      have hk := hi.key m e he
      exact List.mem_map.2 ⟨e, (hi.index _ _).2 ⟨by rw [hk]; exact he, hp⟩, hk⟩
  refine ⟨v, hr, hmem, ?_, ?_, ?_⟩
  · intro p
    refine ⟨?_, cachedHostsCountOnPort_eq v p⟩
    rw [cachedHostsOnPort_eq]; exact hi.nodupPort _
  · intro p q m hp hq
    obtain ⟨e, he, h1⟩ := (hmem p m).1 hp
    obtain ⟨e', he', h2⟩ := (hmem q m).1 hq
    rw [he] at he'
    have : e = e' := Option.some.inj he'
    rw [← h1, ← h2, this]
  · exact ⟨v.hostCache.keys, hi.nodup, fun m => Dict.get?_isSome_iff_mem_keys.symm,
      by simp [hostsCount, Dict.keys]⟩

/-- **C01/C02 (refinement).** If the clock never runs backwards, the host table after any history is
exactly the abstract map: in particular every lookup returns the last sighting. -/
theorem host_table_refines_map (ops : List Op) (hmono : Monotone ops) :
    ∃ v, run {} ops = some v ∧
      ∀ m, (cachedHost v m).map (fun e => (e.port, e.cacheTime)) = specRun ops m := by
  obtain ⟨v, T, hr, _, ha⟩ := run_tinv ops tinv_init (by simp) hmono
  refine ⟨v, hr, fun m => ?_⟩
  have := congrFun ha m
  exact this

/-- **C02.** If the clock never ran backwards, a sweep at any time with any timeout reports exactly the
hosts (with the port and time of their last sighting) that were last seen before `now - timeout` and are
not on a permanent-learn port, forgets exactly those, and keeps the rest. -/
theorem expiry_exact (ops : List Op) (hmono : Monotone ops) (now timeout : Int) :
    ∃ v ex v', run {} ops = some v ∧ expireCacheHosts v now timeout = some (ex, v') ∧
      (∀ m p t, (∃ e ∈ ex, e.ethSrc = m ∧ e.port = p ∧ e.cacheTime = t) ↔
        specRun ops m = some (p, t) ∧ t < now - timeout ∧ p.permanentLearn = false) ∧
      (∀ m p t, (∃ e, cachedHost v' m = some e ∧ e.port = p ∧ e.cacheTime = t) ↔
        specRun ops m = some (p, t) ∧ ¬ (t < now - timeout ∧ p.permanentLearn = false)) := by
  obtain ⟨v, T, hr, ht, ha⟩ := run_tinv ops tinv_init (by simp) hmono
  have hi := ht.inv
  obtain ⟨ex, v', he, hi', hif⟩ := sweep_spec hi now timeout
  have habs : ∀ m p t, specRun ops m = some (p, t) ↔
      ∃ e, v.hostCache.get? m = some e ∧ e.port = p ∧ e.cacheTime = t := by
    intro m p t
    have h1 : specRun ops m = abs v m := (congrFun ha m).symm
    rw [h1]; unfold abs
    cases hg : v.hostCache.get? m with
    | none => simp
    | some e => simp
  refine ⟨v, ex, v', hr, he, ?_, ?_⟩
  · intro m p t
    rw [habs]
    by_cases hd : due v now timeout
    · rw [if_pos hd] at hif
      obtain ⟨rfl, -, -⟩ := hif
      constructor
      · rintro ⟨e, hin, rfl, rfl, rfl⟩
        simp only [List.mem_filter, Dict.mem_values, Bool.and_eq_true, decide_eq_true_eq,
          Bool.not_eq_true'] at hin
        obtain ⟨⟨k, hk⟩, h1, h2⟩ := hin
        have hg := Dict.get?_of_mem hi.nodup hk
        exact ⟨⟨e, by rw [hi.key _ _ hg]; exact hg, rfl, rfl⟩, h1, h2⟩
      · rintro ⟨⟨e, hg, rfl, rfl⟩, h1, h2⟩
        refine ⟨e, ?_, hi.key _ _ hg, rfl, rfl⟩
        simp only [List.mem_filter, Dict.mem_values, Bool.and_eq_true, decide_eq_true_eq,
          Bool.not_eq_true']
        exact ⟨⟨m, Dict.mem_of_get? hg⟩, h1, h2⟩
    · rw [if_neg hd] at hif
      obtain ⟨rfl, rfl⟩ := hif
      constructor
      · rintro ⟨e, hin, _⟩; cases hin
      · rintro ⟨⟨e, hg, rfl, rfl⟩, h1, _⟩
        have := not_due_fresh ht (by simpa using hd) m e hg
        omega
  · intro m p t
    rw [habs]
    by_cases hd : due v now timeout
    · rw [if_pos hd] at hif
      obtain ⟨-, -, hg⟩ := hif
      unfold cachedHost
      rw [hg]
      cases hgx : v.hostCache.get? m with
      | none => simp
      | some e =>
        simp only [Option.some.injEq, exists_eq_left']
        split
        · rename_i hc
          simp only [reduceCtorEq, false_and, exists_false, false_iff]
          rintro ⟨⟨rfl, rfl⟩, h⟩; exact h hc
        · rename_i hc
          simp only [Option.some.injEq, exists_eq_left']
          constructor
          · rintro ⟨rfl, rfl⟩; exact ⟨⟨rfl, rfl⟩, hc⟩
          · exact fun h => h.1
    · rw [if_neg hd] at hif
      obtain ⟨rfl, rfl⟩ := hif
      unfold cachedHost
      constructor
      · rintro ⟨e, hg, rfl, rfl⟩
        refine ⟨⟨e, hg, rfl, rfl⟩, fun h => ?_⟩
        have := not_due_fresh ht (by simpa using hd) m e hg
        omega
      · exact fun h => h.1

/-- A concrete history with a refresh, a move, a permanent host and two sweeps meets the hypothesis of
`host_table_refines_map` and `expiry_exact`, and its outcome is not trivial. -/
def sampleHistory : List Op :=
  [ .learn 0xa ⟨1, false, false, 0, false, false, 0⟩ 10
  , .learn 0xb ⟨2, true, false, 0, false, false, 0⟩ 11
  , .sweep 20 300
  , .learn 0xa ⟨3, false, false, 0, false, false, 0⟩ 100
  , .learn 0xc ⟨1, false, false, 0, false, false, 0⟩ 120
  , .sweep 410 300 ]

example : Monotone sampleHistory := by unfold Monotone; decide

example : ((run {} sampleHistory).map (fun v => (v.hostCache.map (fun x => (x.1, x.2.port.number)), hostsCount v)))
    = some ([(0xb, 2), (0xc, 1)], 2) := by decide

/-- The clock hypothesis of C02 is needed: if time goes backwards, the shortcut hides a stale host. -/
theorem expiry_needs_monotone_clock :
    ∃ ops v, run {} ops = some v ∧ (∃ v', expireCacheHosts v 50 30 = some ([], v')) ∧
      ∃ e, cachedHost v 0xa = some e ∧ e.cacheTime < 50 - 30 ∧ e.port.permanentLearn = false := by
  exact ⟨[.sweep 100 300, .learn 0xa ⟨1, false, false, 0, false, false, 0⟩ 10], _, rfl, ⟨_, rfl⟩, _, rfl, by decide, rfl⟩

end Faucet.HostCache
