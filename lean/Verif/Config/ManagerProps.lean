import Verif.Config.Manager
import Verif.Config.IncludeProps
import Mathlib.Data.List.Nodup
import Mathlib.Data.List.Infix

/-! # Configuration management: properties (C31, C33, C40) -/

namespace Faucet.Config

open Faucet

/-! ## Specification -/

/-- Spec: the switches under control are those of this configuration, each with its new settings. A switch of hardware that
is not supported may be missing. -/
def Configured (e : MEnv) (dps : List (Nat × Nat)) (valves : Dict Nat Valve) : Prop :=
  (∀ id v, valves.get? id = some v → (id, v.cfg) ∈ dps) ∧
  ∀ id cfg, (id, cfg) ∈ dps → e.supported cfg = true → ∃ v, valves.get? id = some v ∧ v.cfg = cfg

/-- Spec: a watched file is as it was loaded: absent if it was not loaded, else with the same content. -/
def AsLoaded (fs : Dict Path Content) (q : Path) (hash : Option Content) : Prop := fs.get? q = hash

/-- Spec: no file was both loaded and skipped. -/
def Consistent (tr : List (Path × Bool)) : Prop := ∀ q, (q, true) ∈ tr → (q, false) ∉ tr

/-- Configurations with the same switch twice are rejected (`faucet/config_parser.py` 256-261). -/
def MEnv.Ok (e : MEnv) : Prop := ∀ t dps, e.validate t = some dps → (dps.map Prod.fst).Nodup

/-! ## Lemmas -/

theorem get?_filterKey {κ α : Type} [DecidableEq κ] (d : Dict κ α) (P : κ → Bool) (k : κ) :
    Dict.get? (List.filter (fun x => P x.1) d) k = if P k then d.get? k else none := by
  induction d with
  | nil => cases P k <;> rfl
  | cons x d ih =>
    obtain ⟨k', v⟩ := x
    rw [List.filter_cons]
    by_cases hk : k' = k
    · subst hk
      cases hP : P k' with
      | true => simp [Dict.get?_cons, hP]
      | false => simp only [Bool.false_eq_true, if_false]; rw [ih, hP]; simp
    · split
      · rw [Dict.get?_cons, if_neg hk, ih, Dict.get?_cons, if_neg hk]
      · rw [ih, Dict.get?_cons, if_neg hk]

theorem keys_filterKey_nodup {κ α : Type} [DecidableEq κ] {d : Dict κ α} (h : d.keys.Nodup) (P : κ × α → Bool) :
    (Dict.keys (List.filter P d)).Nodup := by
  unfold Dict.keys at *
  exact h.sublist (List.filter_sublist.map _)

theorem fileChanged_false {now hash : Option Content} : fileChanged now hash = false ↔ now = hash := by
  unfold fileChanged
  cases hash with
  | none => cases now <;> simp
  | some h => cases now <;> simp

theorem configChanged_same {file : Path} {h : Dict Path (Option Content)} {fs : Dict Path Content} :
    configChanged (some file) file (some h) fs = false ↔ ∀ q x, (q, x) ∈ h → AsLoaded fs q x := by
  unfold configChanged
  rw [if_neg (by simp)]
  simp only [List.any_eq_false]
  constructor
  · intro hh q x hm
    have := hh _ hm
    exact fileChanged_false.1 (by simpa using this)
  · intro hh x hm
    have := fileChanged_false.2 (hh x.1 x.2 hm)
    simp [this]

theorem files_get? (m : Mgr) (q : Path) : m.files.get? q = (m.fs.get? q).map Prod.fst := by
  unfold Mgr.files
  generalize m.fs = d
  induction d with
  | nil => rfl
  | cons x d ih =>
    obtain ⟨k, v⟩ := x
    rw [List.map_cons, Dict.get?_cons, Dict.get?_cons, ih]
    split <;> rfl

/-- Recorded hashes of a consistent trace. -/
theorem hashes_of_trace (fs : Dict Path Content) (tr : List (Path × Bool)) (h0 : Dict Path (Option Content)) (q : Path) (b : Bool)
    (hq : (q, b) ∈ tr) (hc : (q, !b) ∉ tr) :
    Dict.get? (tr.foldl (noteHash fs) h0) q = some (if b then fs.get? q else none) := by
  induction tr using List.reverseRecOn with
  | nil => simp at hq
  | append_singleton tr x ih =>
    rw [List.foldl_append]
    obtain ⟨r, c⟩ := x
    show Dict.get? (Dict.set _ r _) q = _
    by_cases hr : r = q
    · subst hr
      have hcb : c = b := by
        cases c <;> cases b <;> simp at hc ⊢
      subst hcb
      rw [Dict.get?_set_self]
    · rw [Dict.get?_set_ne _ _ hr]
      apply ih
      · rcases List.mem_append.1 hq with h | h
        · exact h
        · simp at h; exact absurd h.1.symm hr
      · intro h; exact hc (List.mem_append_left _ h)

theorem agree_of_unchanged {fs fs2 : Dict Path Content} {tr : List (Path × Bool)} (hcon : Consistent tr)
    (hsame : ∀ q x, (q, x) ∈ tr.foldl (noteHash fs) [] → AsLoaded fs2 q x) : Agree fs fs2 tr := by
  refine ⟨fun q hq => ?_, fun q hq => ?_⟩
  · have := hashes_of_trace fs tr [] q true hq (hcon q hq)
    exact hsame q _ (Dict.mem_of_get? this)
  · have hn : (q, !false) ∉ tr := fun h => hcon q h hq
    have := hashes_of_trace fs tr [] q false hq hn
    exact hsame q none (Dict.mem_of_get? this)

/-- The result of a load does not depend on the depth given. -/
theorem loadTop_eq {e : Env} {fs : Dict Path Content} {p : Path} {n : Nat} (hn : dpInclude e fs n {} p ≠ .deep) :
    loadTop e fs p = dpInclude e fs n {} p := by
  have mono : ∀ k, dpInclude e fs (n + k) {} p = dpInclude e fs n {} p := by
    intro k
    induction k with
    | zero => rfl
    | succ k ih => rw [← ih]; exact include_more (n + k) {} p (by rw [ih]; exact hn)
  obtain ⟨r, _, hr⟩ := include_terminates e fs {} p
  have h1 := mono (2 * fs.length + 2)
  rw [hr _ (by omega)] at h1
  unfold loadTop
  rw [hr _ (Nat.le_refl _)]
  exact h1

theorem loadTop_not_deep (e : Env) (fs : Dict Path Content) (p : Path) : loadTop e fs p ≠ .deep := by
  obtain ⟨r, h, hr⟩ := include_terminates e fs {} p
  unfold loadTop
  rw [hr _ (Nat.le_refl _)]; exact h

/-- **No change is missed.** If a configuration was loaded and every recorded file is still as it was recorded, loading it
again gives the same switches, files and settings. -/
theorem unchanged_files_same_config {e : MEnv} {fs fs2 : Dict Path Content} {s : St} {dps : List (Nat × Nat)}
    (h : parseConfigs e fs e.file = .valid s dps) (hcon : Consistent s.trace)
    (hsame : ∀ q x, (q, x) ∈ s.hashes → AsLoaded fs2 q x) :
    ∃ s2, parseConfigs e fs2 e.file = .valid s2 dps ∧ Same s s2 := by
  unfold parseConfigs at h
  split at h
  · simp at h
  · rename_i c hc
    split at h
    · simp at h
    · simp at h
    · rename_i d hd
      split at h
      · rename_i hv
        unfold parseDoc at h
        split at h
        · simp at h
        · simp at h
        · simp at h
        · rename_i s0 hl
          split at h
          · simp at h
          · rename_i dps' hval
            simp only [Parsed.valid.injEq] at h
            obtain ⟨rfl, rfl⟩ := h
            obtain ⟨hL, hconf, hhash⟩ := settings_of_loaded_files hl
            have hagree : Agree fs fs2 s0.trace := agree_of_unchanged hcon (by rw [← hhash]; exact hsame)
            obtain ⟨t, ht, hst⟩ := include_same _ {} {} s0 e.file s0.trace ⟨rfl, rfl, rfl⟩ hl (by simp) hagree
            have htop : loadTop e.toEnv fs2 e.file = .done t true := by
              rw [loadTop_eq (n := 2 * fs.length + 2) (by rw [ht]; simp), ht]
            have hpin : (e.file, true) ∈ s0.trace := by
              have := hL.first
              cases htr : s0.trace with
              | nil => rw [htr] at this; simp at this
              | cons y t => rw [htr] at this; simp at this; simp [this]
            refine ⟨t, ?_, hst⟩
            unfold parseConfigs
            rw [hagree.1 _ hpin, hc]
            simp only [hd]
            rw [if_pos hv]
            unfold parseDoc
            rw [htop]
            simp only
            rw [← hst.2.1, hval]
      · simp at h

/-! ## Applying a configuration -/

/-- What the loop over the new switches does, switch by switch. -/
theorem applyDp_fold (e : MEnv) (dps : List (Nat × Nat)) (hnd : (dps.map Prod.fst).Nodup)
    (st : Dict Nat Valve × Dict Nat Bool × Dict Nat Nat) (id : Nat) :
    let r := dps.foldl (applyDp e) st
    match Dict.get? dps id with
    | none => r.1.get? id = st.1.get? id ∧ r.2.1.get? id = st.2.1.get? id ∧ r.2.2.get? id = st.2.2.get? id
    | some cfg => match st.1.get? id with
      | none => r.1.get? id = (if e.supported cfg then some ⟨cfg, false⟩ else none) ∧ r.2.1.get? id = st.2.1.get? id ∧
          r.2.2.get? id = st.2.2.get? id
      | some v => r.1.get? id = some ⟨cfg, v.running && !e.cold v.cfg cfg⟩ ∧
          r.2.1.get? id = some (v.running && !e.cold v.cfg cfg) ∧
          r.2.2.get? id = (if v.running && !e.cold v.cfg cfg then some cfg else st.2.2.get? id) := by
  induction dps generalizing st with
  | nil => exact ⟨rfl, rfl, rfl⟩
  | cons d ds ih =>
    obtain ⟨i, c⟩ := d
    rw [List.map_cons, List.nodup_cons] at hnd
    have ihs := ih hnd.2 (applyDp e st (i, c))
    simp only [List.foldl_cons] at ihs ⊢
    rw [Dict.get?_cons]
    by_cases hid : i = id
    · subst hid
      rw [if_pos rfl]
      have hno : Dict.get? ds i = none := Dict.get?_eq_none_iff.2 (by unfold Dict.keys; exact hnd.1)
      rw [hno] at ihs
      simp only at ihs ⊢
      obtain ⟨i1, i2, i3⟩ := ihs
      cases hv : st.1.get? i with
      | none =>
        have hstep : applyDp e st (i, c) = if e.supported c then (st.1.set i ⟨c, false⟩, st.2) else st := by
          unfold applyDp; rw [hv]
        simp only
        rw [i1, i2, i3, hstep]
        split
        · refine ⟨?_, rfl, rfl⟩; show Dict.get? (Dict.set _ _ _) _ = _; rw [Dict.get?_set_self]
        · exact ⟨hv, rfl, rfl⟩
      | some v =>
        have hstep : applyDp e st (i, c) = (st.1.set i ⟨c, v.running && !e.cold v.cfg c⟩,
            st.2.1.set i (v.running && !e.cold v.cfg c),
            if v.running && !e.cold v.cfg c then st.2.2.set i c else st.2.2) := by
          unfold applyDp; rw [hv]
        simp only
        rw [i1, i2, i3, hstep]
        refine ⟨by simp, by simp, ?_⟩
        show Dict.get? (if _ then _ else _) i = _
        split
        · simp
        · rfl
    · rw [if_neg hid]
      have hoth : (applyDp e st (i, c)).1.get? id = st.1.get? id ∧ (applyDp e st (i, c)).2.1.get? id = st.2.1.get? id ∧
          (applyDp e st (i, c)).2.2.get? id = st.2.2.get? id := by
        unfold applyDp
        split
        · refine ⟨Dict.get?_set_ne _ _ hid, Dict.get?_set_ne _ _ hid, ?_⟩
          simp only
          split
          · exact Dict.get?_set_ne _ _ hid
          · rfl
        · split
          · exact ⟨Dict.get?_set_ne _ _ hid, rfl, rfl⟩
          · exact ⟨rfl, rfl, rfl⟩
      rw [hoth.1, hoth.2.1, hoth.2.2] at ihs
      exact ihs

theorem applyDp_nodup (e : MEnv) (dps : List (Nat × Nat)) (st : Dict Nat Valve × Dict Nat Bool × Dict Nat Nat)
    (h : st.1.keys.Nodup) : (dps.foldl (applyDp e) st).1.keys.Nodup := by
  induction dps generalizing st with
  | nil => exact h
  | cons d ds ih =>
    rw [List.foldl_cons]
    apply ih
    unfold applyDp
    split
    · exact Dict.nodup_keys_set h _ _
    · split
      · exact Dict.nodup_keys_set h _ _
      · exact h

theorem any_fst {dps : List (Nat × Nat)} {id : Nat} : (dps.any (fun d => d.1 == id)) = true ↔ (Dict.get? dps id).isSome := by
  rw [Dict.get?_isSome_iff_mem_keys]
  unfold Dict.keys
  simp [List.any_eq_true, List.mem_map]

/-- The valves after a configuration is applied. -/
theorem apply_valves (e : MEnv) (m : Mgr) (dps : List (Nat × Nat)) (id : Nat) :
    (m.apply e dps).valves.get? id = if (Dict.get? dps id).isSome then (dps.foldl (applyDp e) (m.valves, [], m.pushed)).1.get? id
      else none := by
  show Dict.get? (List.filter (fun v => dps.any (fun d => d.1 == v.1)) _) id = _
  rw [get?_filterKey _ (fun k => dps.any (fun d => d.1 == k))]
  by_cases h : (dps.any (fun d => d.1 == id)) = true
  · rw [if_pos h, if_pos (any_fst.1 h)]
  · rw [if_neg h, if_neg (fun h2 => h (any_fst.2 h2))]

/-- **A valid configuration is applied.** -/
theorem apply_configured (e : MEnv) (m : Mgr) (dps : List (Nat × Nat)) (hnd : (dps.map Prod.fst).Nodup) :
    Configured e dps (m.apply e dps).valves := by
  have hk : (Dict.keys dps).Nodup := hnd
  constructor
  · intro id v hv
    rw [apply_valves] at hv
    cases hd : Dict.get? dps id with
    | none => rw [hd] at hv; simp at hv
    | some cfg =>
      rw [hd] at hv
      simp only [Option.isSome_some, if_true] at hv
      have hf := applyDp_fold e dps hnd (m.valves, [], m.pushed) id
      rw [hd] at hf
      simp only at hf
      cases hv0 : m.valves.get? id with
      | none =>
        simp only [hv0] at hf
        rw [hf.1] at hv
        split at hv
        · simp at hv; subst hv; exact Dict.mem_of_get? hd
        · simp at hv
      | some v0 =>
        simp only [hv0] at hf
        rw [hf.1] at hv
        simp at hv
        subst hv
        exact Dict.mem_of_get? hd
  · intro id cfg hm hs
    have hd : Dict.get? dps id = some cfg := Dict.get?_of_mem hk hm
    rw [apply_valves, hd]
    simp only [Option.isSome_some, if_true]
    have hf := applyDp_fold e dps hnd (m.valves, [], m.pushed) id
    rw [hd] at hf
    simp only at hf
    cases hv0 : m.valves.get? id with
    | none =>
      simp only [hv0] at hf
      rw [hf.1, if_pos hs]
      exact ⟨_, rfl, rfl⟩
    | some v0 =>
      simp only [hv0] at hf
      exact ⟨_, hf.1, rfl⟩

/-! ## The invariant -/

/-- After any history: `seen` holds of the disk contents at some earlier time. -/
structure MInv (e : MEnv) (seen : Dict Path Content → Prop) (m : Mgr) : Prop where
  nodup : m.valves.keys.Nodup
  /-- what runs was loaded from the disk at some time -/
  runs : m.valves = [] ∨ ∃ fs0 s dps, seen fs0 ∧ parseConfigs e fs0 e.file = .valid s dps ∧ Configured e dps m.valves
  /-- nothing loaded yet, or the last load failed, or it succeeded and its files are watched -/
  watch : (m.watchFile = none ∧ m.watchHashes = none) ∨ (m.watchFile = some e.file ∧
    (m.watchHashes = some [(e.file, none)] ∨ ∃ fs0 s dps, parseConfigs e fs0 e.file = .valid s dps ∧
      m.watchHashes = some s.hashes ∧ m.trace = s.trace ∧ Configured e dps m.valves))
  metric : m.metric = appliedMetric m.valves m.applied
  pushed : ∀ id v, m.valves.get? id = some v → m.applied.get? id = some true → m.pushed.get? id = some v.cfg

theorem MInv.mono {e : MEnv} {seen seen' : Dict Path Content → Prop} {m : Mgr} (h : MInv e seen m) (hs : ∀ f, seen f → seen' f) :
    MInv e seen' m :=
  ⟨h.nodup, h.runs.imp id fun ⟨f, s, d, a, b⟩ => ⟨f, s, d, hs f a, b⟩, h.watch, h.metric, h.pushed⟩

theorem MInv.init (e : MEnv) (seen : Dict Path Content → Prop) : MInv e seen {} :=
  ⟨List.nodup_nil, Or.inl rfl, Or.inl ⟨rfl, rfl⟩, rfl, by intro id v h; simp at h⟩

/-- Only the disk and the stats differ. -/
theorem MInv.of_same {e : MEnv} {seen : Dict Path Content → Prop} {m m' : Mgr} (h : MInv e seen m)
    (h1 : m'.valves = m.valves) (h2 : m'.watchFile = m.watchFile) (h3 : m'.watchHashes = m.watchHashes) (h4 : m'.trace = m.trace)
    (h5 : m'.metric = m.metric) (h6 : m'.applied = m.applied) (h7 : m'.pushed = m.pushed) : MInv e seen m' := by
  refine ⟨?_, ?_, ?_, ?_, ?_⟩
  · rw [h1]; exact h.nodup
  · rw [h1]; exact h.runs
  · rw [h1, h2, h3, h4]; exact h.watch
  · rw [h1, h5, h6]; exact h.metric
  · rw [h1, h6, h7]; exact h.pushed

theorem valid_nodup {e : MEnv} (ok : e.Ok) {fs : Dict Path Content} {p : Path} {s : St} {dps : List (Nat × Nat)}
    (h : parseConfigs e fs p = .valid s dps) : (dps.map Prod.fst).Nodup := by
  unfold parseConfigs at h
  split at h
  · simp at h
  · split at h
    · simp at h
    · simp at h
    · split at h
      · unfold parseDoc at h
        split at h
        · simp at h
        · simp at h
        · simp at h
        · split at h
          · simp at h
          · rename_i hval
            simp only [Parsed.valid.injEq] at h
            obtain ⟨rfl, rfl⟩ := h
            exact ok _ _ hval
      · simp at h

theorem MInv.load {e : MEnv} (ok : e.Ok) {seen : Dict Path Content → Prop} {m m' : Mgr} (h : MInv e seen m) (hseen : seen m.files)
    {stamp : Nat} (hl : m.load e stamp = some m') : MInv e seen m' := by
  unfold Mgr.load at hl
  split at hl
  · simp at hl
  · simp only [Option.some.injEq] at hl
    subst hl
    refine ⟨h.nodup, h.runs, Or.inr ⟨rfl, Or.inl rfl⟩, rfl, ?_⟩
    intro id v _ ha
    simp at ha
  · rename_i s dps hp
    simp only [Option.some.injEq] at hl
    subst hl
    have hnd := valid_nodup ok hp
    have hconf := apply_configured e { m with watchFile := some e.file, watchHashes := some s.hashes, lastGood := s.contents,
                                              loadError := false, loads := m.loads + 1, trace := s.trace } dps hnd
    refine ⟨?_, Or.inr ⟨m.files, s, dps, hseen, hp, hconf⟩, Or.inr ⟨rfl, Or.inr ⟨m.files, s, dps, hp, rfl, rfl, hconf⟩⟩, rfl, ?_⟩
    · show (Dict.keys (List.filter _ _)).Nodup
      exact keys_filterKey_nodup (applyDp_nodup e dps _ h.nodup) _
    · intro id v hv ha
      rw [apply_valves] at hv
      have ha' : (dps.foldl (applyDp e) (m.valves, [], m.pushed)).2.1.get? id = some true := ha
      show (dps.foldl (applyDp e) (m.valves, [], m.pushed)).2.2.get? id = _
      have hv' : (if (Dict.get? dps id).isSome then (dps.foldl (applyDp e) (m.valves, [], m.pushed)).1.get? id else none) = some v := hv
      have hf := applyDp_fold e dps hnd (m.valves, [], m.pushed) id
      cases hd : Dict.get? dps id with
      | none => rw [hd] at hv'; simp at hv'
      | some cfg =>
        rw [hd] at hf hv'
        simp only [Option.isSome_some, if_true] at hv'
        simp only at hf
        cases hv0 : m.valves.get? id with
        | none =>
          simp only [hv0] at hf
          rw [hf.2.1] at ha'
          simp at ha'
        | some v0 =>
          simp only [hv0] at hf
          rw [hf.2.1] at ha'
          simp only [Option.some.injEq] at ha'
          rw [hf.2.2, if_pos ha']
          rw [hf.1] at hv'
          simp at hv'
          rw [← hv']

theorem MInv.step {e : MEnv} (ok : e.Ok) {seen : Dict Path Content → Prop} {m m' : Mgr} (h : MInv e seen m) (hseen : seen m.files)
    {op : MOp} (hs : m.step e op = some m') : MInv e seen m' := by
  have hreload : ∀ (m m' : Mgr) stamp, MInv e seen m → seen m.files → m.reload e stamp = some m' → MInv e seen m' := by
    intro m m' stamp h hseen hr
    unfold Mgr.reload at hr
    split at hr
    · exact h.load ok hseen hr
    · simp only [Option.some.injEq] at hr
      subst hr
      exact h.of_same rfl rfl rfl rfl rfl rfl rfl
  cases op with
  | edit p f =>
    cases f with
    | none => simp only [Mgr.step, Option.some.injEq] at hs; subst hs; exact h.of_same rfl rfl rfl rfl rfl rfl rfl
    | some f => simp only [Mgr.step, Option.some.injEq] at hs; subst hs; exact h.of_same rfl rfl rfl rfl rfl rfl rfl
  | reload stamp => exact hreload _ _ _ h hseen hs
  | poll stamp =>
    simp only [Mgr.step, Mgr.poll] at hs
    split at hs
    · exact hreload _ _ _ (MInv.of_same (m' := { m with stats := m.filesChanged.2 }) h rfl rfl rfl rfl rfl rfl rfl) hseen hs
    · simp only [Option.some.injEq] at hs
      subst hs
      exact h.of_same rfl rfl rfl rfl rfl rfl rfl
  | connect id =>
    simp only [Mgr.step, Option.some.injEq] at hs
    subst hs
    unfold Mgr.connect
    cases hv : m.valves.get? id with
    | none => exact h
    | some v =>
      simp only
      have hmem : id ∈ m.valves.keys := Dict.get?_isSome_iff_mem_keys.1 (by rw [hv]; rfl)
      have hkeys : (m.valves.set id { v with running := true }).keys = m.valves.keys := by
        rw [Dict.keys_set, if_pos hmem]
      have hcfg : ∀ dps, Configured e dps m.valves → Configured e dps (m.valves.set id { v with running := true }) := by
        intro dps hc
        constructor
        · intro i w hw
          rw [Dict.get?_set] at hw
          split at hw
          · rename_i hi; subst hi; simp at hw; subst hw; exact hc.1 _ v hv
          · exact hc.1 i w hw
        · intro i c hm hsup
          obtain ⟨w, hw, hwc⟩ := hc.2 i c hm hsup
          rw [Dict.get?_set]
          split
          · rename_i hi; subst hi; rw [hv] at hw; simp at hw; subst hw; exact ⟨_, rfl, hwc⟩
          · exact ⟨w, hw, hwc⟩
      refine ⟨?_, ?_, ?_, ?_, ?_⟩
      · show (Dict.keys (m.valves.set id _)).Nodup
        rw [hkeys]; exact h.nodup
      · rcases h.runs with h1 | ⟨f, s, d, a, b, c⟩
        · rw [h1] at hv; simp at hv
        · exact Or.inr ⟨f, s, d, a, b, hcfg d c⟩
      · refine h.watch.imp _root_.id fun ⟨a, b⟩ => ⟨a, b.imp _root_.id fun ⟨f, s, d, p1, p2, p3, p4⟩ => ⟨f, s, d, p1, p2, p3, hcfg d p4⟩⟩
      · show appliedMetric m.valves _ = appliedMetric (m.valves.set id _) _
        unfold appliedMetric
        rw [hkeys, Dict.length_set_of_mem hmem]
      · intro i w hw ha
        have hw' : (m.valves.set id { v with running := true }).get? i = some w := hw
        have ha' : (m.applied.set id true).get? i = some true := ha
        show (m.pushed.set id v.cfg).get? i = _
        rw [Dict.get?_set] at hw' ha' ⊢
        split at hw'
        · rename_i hi; simp at hw'; subst hw'; rw [if_pos hi]
        · rename_i hi; rw [if_neg hi] at ha' ⊢; exact h.pushed i w hw' ha'
  | disconnect id =>
    simp only [Mgr.step, Option.some.injEq] at hs
    subst hs
    unfold Mgr.disconnect
    cases hv : m.valves.get? id with
    | none => exact h
    | some v =>
      simp only
      have hmem : id ∈ m.valves.keys := Dict.get?_isSome_iff_mem_keys.1 (by rw [hv]; rfl)
      have hkeys : (m.valves.set id { v with running := false }).keys = m.valves.keys := by
        rw [Dict.keys_set, if_pos hmem]
      have hcfg : ∀ dps, Configured e dps m.valves → Configured e dps (m.valves.set id { v with running := false }) := by
        intro dps hc
        constructor
        · intro i w hw
          rw [Dict.get?_set] at hw
          split at hw
          · rename_i hi; subst hi; simp at hw; subst hw; exact hc.1 _ v hv
          · exact hc.1 i w hw
        · intro i c hm hsup
          obtain ⟨w, hw, hwc⟩ := hc.2 i c hm hsup
          rw [Dict.get?_set]
          split
          · rename_i hi; subst hi; rw [hv] at hw; simp at hw; subst hw; exact ⟨_, rfl, hwc⟩
          · exact ⟨w, hw, hwc⟩
      refine ⟨?_, ?_, ?_, ?_, ?_⟩
      · show (Dict.keys (m.valves.set id _)).Nodup
        rw [hkeys]; exact h.nodup
      · rcases h.runs with h1 | ⟨f, s, d, a, b, c⟩
        · rw [h1] at hv; simp at hv
        · exact Or.inr ⟨f, s, d, a, b, hcfg d c⟩
      · refine h.watch.imp _root_.id fun ⟨a, b⟩ => ⟨a, b.imp _root_.id fun ⟨f, s, d, p1, p2, p3, p4⟩ => ⟨f, s, d, p1, p2, p3, hcfg d p4⟩⟩
      · show m.metric = appliedMetric (m.valves.set id _) _
        unfold appliedMetric
        rw [hkeys, Dict.length_set_of_mem hmem]
        exact h.metric
      · intro i w hw ha
        have hw' : (m.valves.set id { v with running := false }).get? i = some w := hw
        show m.pushed.get? i = _
        rw [Dict.get?_set] at hw'
        split at hw'
        · rename_i hi; simp at hw'; subst hi; subst hw'; exact h.pushed _ v hv ha
        · exact h.pushed i w hw' ha

/-- Spec: these contents were on the disk at some time of the history. -/
def OnDisk (e : MEnv) (ops : List MOp) (fs : Dict Path Content) : Prop :=
  ∃ a b m, ops = a ++ b ∧ Mgr.run e {} a = some m ∧ m.files = fs

theorem Mgr.run_append (e : MEnv) (m : Mgr) (a b : List MOp) : Mgr.run e m (a ++ b) = (Mgr.run e m a).bind (fun m' => Mgr.run e m' b) := by
  induction a generalizing m with
  | nil => rfl
  | cons op a ih =>
    simp only [List.cons_append, Mgr.run]
    cases m.step e op with
    | none => rfl
    | some m' => exact ih m'

theorem minv_run {e : MEnv} (ok : e.Ok) (ops : List MOp) (m : Mgr) (h : Mgr.run e {} ops = some m) : MInv e (OnDisk e ops) m := by
  induction ops using List.reverseRecOn generalizing m with
  | nil =>
    simp [Mgr.run] at h
    subst h
    exact MInv.init e _
  | append_singleton ops op ih =>
    rw [Mgr.run_append] at h
    cases hm : Mgr.run e {} ops with
    | none => rw [hm] at h; simp at h
    | some m0 =>
      rw [hm] at h
      simp only [Option.bind_some, Mgr.run] at h
      cases hs : m0.step e op with
      | none => rw [hs] at h; simp at h
      | some m1 =>
        rw [hs] at h
        simp only [Option.some.injEq] at h
        subst h
        refine MInv.step ok ((ih m0 hm).mono ?_) ⟨ops, [op], m0, rfl, hm, rfl⟩ hs
        rintro fs ⟨a, b, m', h1, h2, h3⟩
        exact ⟨a, b ++ [op], m', by rw [h1, List.append_assoc], h2, h3⟩

/-! ## C31 -/

/-- Only configurations that were valid on the disk at some time ever run. -/
theorem running_config_was_valid {e : MEnv} (ok : e.Ok) (ops : List MOp) (m : Mgr) (h : Mgr.run e {} ops = some m) :
    m.valves = [] ∨ ∃ fs s dps, OnDisk e ops fs ∧ parseConfigs e fs e.file = .valid s dps ∧ Configured e dps m.valves :=
  (minv_run ok ops m h).runs

/-- An invalid configuration changes no switch, and if it is looked at, the error is reported. -/
theorem invalid_config_not_applied {e : MEnv} {m m' : Mgr} {stamp : Nat} (hp : parseConfigs e m.files e.file = .invalid)
    (h : m.reload e stamp = some m') : m'.valves = m.valves ∧ m'.pushed = m.pushed ∧
      (configChanged m.watchFile e.file m.watchHashes m.files = true → m'.loadError = true) := by
  unfold Mgr.reload at h
  split at h
  · unfold Mgr.load at h
    rw [hp] at h
    simp only [Option.some.injEq] at h
    subst h
    exact ⟨rfl, rfl, fun _ => rfl⟩
  · rename_i hc
    simp only [Option.some.injEq] at h
    subst h
    exact ⟨rfl, rfl, fun h2 => absurd h2 hc⟩

/-- An invalid configuration never ends the controller; it goes on to watch the file. -/
theorem invalid_config_survives {e : MEnv} {m : Mgr} {stamp : Nat} (hp : parseConfigs e m.files e.file = .invalid) :
    ∃ m', m.reload e stamp = some m' := by
  unfold Mgr.reload Mgr.load
  rw [hp]
  split
  · exact ⟨_, rfl⟩
  · exact ⟨_, rfl⟩

/-- **A correct file is picked up.** After any history, a reload request with a valid configuration on the disk leaves exactly
its switches configured, whether or not earlier loads failed. Not covered: configurations in which a file was both loaded and
skipped, see `deleted_file_missed_defect`. -/
theorem reload_follows_disk_partial {e : MEnv} (ok : e.Ok) (ops : List MOp) (m m' : Mgr) (h : Mgr.run e {} ops = some m)
    (hcon : Consistent m.trace) {stamp : Nat} {s : St} {dps : List (Nat × Nat)}
    (hp : parseConfigs e m.files e.file = .valid s dps) (hr : m.reload e stamp = some m') :
    Configured e dps m'.valves ∧ m'.loadError = false := by
  have hinv := minv_run ok ops m h
  unfold Mgr.reload at hr
  split at hr
  · unfold Mgr.load at hr
    rw [hp] at hr
    simp only [Option.some.injEq] at hr
    subst hr
    exact ⟨apply_configured e _ dps (valid_nodup ok hp), rfl⟩
  · rename_i hc
    simp only [Option.some.injEq] at hr
    subst hr
    refine ⟨?_, rfl⟩
    show Configured e dps m.valves
    rcases hinv.watch with ⟨w1, _⟩ | ⟨w1, w2 | ⟨fs0, s0, dps0, w2, w3, w4, w5⟩⟩
    · exfalso; apply hc; unfold configChanged; rw [w1]; simp
    · exfalso
      apply hc
      rw [w1, w2]
      have hex : (m.files.get? e.file).isSome := by
        unfold parseConfigs at hp
        cases hf : m.files.get? e.file with
        | none => rw [hf] at hp; simp at hp
        | some c => rfl
      obtain ⟨c, hc'⟩ := Option.isSome_iff_exists.1 hex
      unfold configChanged
      simp [hc', fileChanged]
    · have hc' : configChanged (some e.file) e.file (some s0.hashes) m.files = false := by
        rw [w1, w3] at hc; simpa using hc
      obtain ⟨s2, hs2, _⟩ := unchanged_files_same_config w2 (by rw [← w4]; exact hcon) (configChanged_same.1 hc')
      rw [hp] at hs2
      simp only [Parsed.valid.injEq] at hs2
      rw [hs2.2]; exact w5

/-! ## C33 -/

/-- A poll that is not the first after the start loads the configuration exactly when some watched file is not as it was
loaded. -/
theorem poll_loads_iff {e : MEnv} {m m' : Mgr} {stamp : Nat} {h : Dict Path (Option Content)} {old : List (Path × Nat)}
    (hw : m.watchFile = some e.file) (hh : m.watchHashes = some h) (hs : m.stats = some old) (hold : old ≠ [])
    (hp : m.poll e stamp = some m') :
    ((∃ q x, (q, x) ∈ h ∧ ¬ AsLoaded m.files q x) → m'.loads = m.loads + 1) ∧
    ((∀ q x, (q, x) ∈ h → AsLoaded m.files q x) → m'.loads = m.loads ∧ m'.valves = m.valves) := by
  have hch : configChanged m.watchFile e.file m.watchHashes m.files = false ↔ ∀ q x, (q, x) ∈ h → AsLoaded m.files q x := by
    rw [hw, hh]; exact configChanged_same
  have hload : ∀ (a b : Mgr), a.load e stamp = some b → b.loads = a.loads + 1 := by
    intro a b hab
    unfold Mgr.load at hab
    split at hab
    · simp at hab
    · simp only [Option.some.injEq] at hab; subst hab; rfl
    · simp only [Option.some.injEq] at hab; subst hab; rfl
  unfold Mgr.poll at hp
  constructor
  · rintro ⟨q, x, hm, hne⟩
    have hct : configChanged m.watchFile e.file m.watchHashes m.files = true := by
      cases hc : configChanged m.watchFile e.file m.watchHashes m.files with
      | true => rfl
      | false => exact absurd (hch.1 hc q x hm) hne
    have hfc : m.filesChanged.1 = true := by
      unfold Mgr.filesChanged
      rw [hh]
      cases h with
      | nil => simp at hm
      | cons y h =>
        simp only [hs, hw]
        cases old with
        | nil => exact absurd rfl hold
        | cons z old =>
          split
          · rw [hw, hh] at hct; exact hct
          · rfl
    simp only [hfc, if_true] at hp
    unfold Mgr.reload at hp
    have hct' : configChanged ({ m with stats := m.filesChanged.2 } : Mgr).watchFile e.file
        ({ m with stats := m.filesChanged.2 } : Mgr).watchHashes ({ m with stats := m.filesChanged.2 } : Mgr).files = true := hct
    rw [if_pos hct'] at hp
    have := hload _ _ hp
    exact this
  · intro hall
    have hcf := hch.2 hall
    simp only at hp
    split at hp
    · unfold Mgr.reload at hp
      have hct' : configChanged ({ m with stats := m.filesChanged.2 } : Mgr).watchFile e.file
          ({ m with stats := m.filesChanged.2 } : Mgr).watchHashes ({ m with stats := m.filesChanged.2 } : Mgr).files = false := hcf
      rw [hct'] at hp
      simp only [Bool.false_eq_true, if_false, Option.some.injEq] at hp
      subst hp
      exact ⟨rfl, rfl⟩
    · simp only [Option.some.injEq] at hp
      subst hp
      exact ⟨rfl, rfl⟩

/-- As long as nobody touches the files, a configuration that loaded cleanly (optional files that were skipped do not exist)
is never loaded again, however often the files are polled or a reload is requested. -/
theorem untouched_never_reloaded_partial {e : MEnv} {m : Mgr} {h : Dict Path (Option Content)} (hw : m.watchFile = some e.file)
    (hh : m.watchHashes = some h) (hall : ∀ q x, (q, x) ∈ h → AsLoaded m.files q x) (ops : List MOp)
    (hops : ∀ op ∈ ops, (∃ st, op = .poll st) ∨ ∃ st, op = .reload st) :
    ∃ m', m.run e ops = some m' ∧ m'.loads = m.loads ∧ m'.valves = m.valves := by
  have hreload : ∀ (a : Mgr) st, a.watchFile = some e.file → a.watchHashes = some h → a.files = m.files →
      a.reload e st = some { a with loadError := false } := by
    intro a st h1 h2 h3
    unfold Mgr.reload
    rw [h1, h2, h3, configChanged_same.2 hall]
    rfl
  have gen : ∀ (ops : List MOp) (a : Mgr), (∀ op ∈ ops, (∃ st, op = .poll st) ∨ ∃ st, op = .reload st) →
      a.watchFile = some e.file → a.watchHashes = some h → a.files = m.files → a.loads = m.loads → a.valves = m.valves →
      ∃ m', a.run e ops = some m' ∧ m'.loads = m.loads ∧ m'.valves = m.valves := by
    intro ops
    induction ops with
    | nil => intro a _ _ _ _ h4 h5; exact ⟨a, rfl, h4, h5⟩
    | cons op ops ih =>
      intro a ho h1 h2 h3 h4 h5
      have hrest := fun op hop => ho op (List.mem_cons_of_mem _ hop)
      have hstep : ∃ a', a.step e op = some a' ∧ a'.watchFile = some e.file ∧ a'.watchHashes = some h ∧ a'.files = m.files ∧
          a'.loads = m.loads ∧ a'.valves = m.valves := by
        rcases ho op (by simp) with ⟨st, rfl⟩ | ⟨st, rfl⟩
        · simp only [Mgr.step, Mgr.poll]
          split
          · have := hreload { a with stats := a.filesChanged.2 } st h1 h2 h3
            exact ⟨_, this, h1, h2, h3, h4, h5⟩
          · exact ⟨_, rfl, h1, h2, h3, h4, h5⟩
        · simp only [Mgr.step]
          exact ⟨_, hreload a st h1 h2 h3, h1, h2, h3, h4, h5⟩
      obtain ⟨a', hs, r⟩ := hstep
      rw [Mgr.run, hs]
      exact ih a' hrest r.1 r.2.1 r.2.2.1 r.2.2.2.1 r.2.2.2.2
  exact gen ops m hops hw hh rfl rfl rfl

/-! ## C40 -/

/-- Spec: the configured switches whose configuration counts as applied. -/
def appliedIds (m : Mgr) : List Nat := m.valves.keys.filter (fun id => m.applied.get? id = some true)

/-- After any history the exported fraction is the number of configured switches with applied configuration over the number
of configured switches; it is at most 1, and 1 exactly when there are switches and all have it applied. -/
theorem config_applied_fraction {e : MEnv} (ok : e.Ok) (ops : List MOp) (m : Mgr) (h : Mgr.run e {} ops = some m) :
    m.metric = ((appliedIds m).length, m.valves.length) ∧ m.metric.1 ≤ m.metric.2 ∧
    (m.metric.1 = m.metric.2 ↔ ∀ id v, m.valves.get? id = some v → m.applied.get? id = some true) := by
  have hinv := minv_run ok ops m h
  have hm : m.metric = ((appliedIds m).length, m.valves.length) := hinv.metric
  have hle : (appliedIds m).length ≤ m.valves.length := by
    unfold appliedIds
    refine Nat.le_trans (List.length_filter_le _ _) ?_
    unfold Dict.keys; simp
  refine ⟨hm, by rw [hm]; exact hle, ?_⟩
  rw [hm]
  simp only
  have hkl : m.valves.length = m.valves.keys.length := by unfold Dict.keys; simp
  constructor
  · intro heq id v hv
    have hmem : id ∈ m.valves.keys := Dict.get?_isSome_iff_mem_keys.1 (by rw [hv]; rfl)
    unfold appliedIds at heq
    rw [hkl] at heq
    have := List.length_filter_eq_length_iff.1 heq id hmem
    simpa using this
  · intro hall
    unfold appliedIds
    rw [hkl]
    apply List.length_filter_eq_length_iff.2
    intro id hid
    obtain ⟨v, hv⟩ := Option.isSome_iff_exists.1 (Dict.get?_isSome_iff_mem_keys.2 hid)
    simp [hall id v hv]

/-- A switch counts as applied only if the configuration it has in the controller is the one last sent to it. -/
theorem applied_means_sent {e : MEnv} (ok : e.Ok) (ops : List MOp) (m : Mgr) (h : Mgr.run e {} ops = some m) (id : Nat) (v : Valve)
    (hv : m.valves.get? id = some v) (ha : m.applied.get? id = some true) : m.pushed.get? id = some v.cfg :=
  (minv_run ok ops m h).pushed id v hv ha

/-- A load resets it for all switches: afterwards only switches that were running and took the change without a restart
count, and none if the configuration was invalid. -/
theorem load_resets_applied {e : MEnv} (ok : e.Ok) {m m' : Mgr} {stamp : Nat} (hl : m.load e stamp = some m') (id : Nat)
    (ha : m'.applied.get? id = some true) : ∃ s dps v cfg, parseConfigs e m.files e.file = .valid s dps ∧ (id, cfg) ∈ dps ∧
      m.valves.get? id = some v ∧ v.running = true ∧ e.cold v.cfg cfg = false := by
  unfold Mgr.load at hl
  split at hl
  · simp at hl
  · simp only [Option.some.injEq] at hl
    subst hl
    simp at ha
  · rename_i s dps hp
    simp only [Option.some.injEq] at hl
    subst hl
    have ha' : (dps.foldl (applyDp e) (m.valves, [], m.pushed)).2.1.get? id = some true := ha
    have hf := applyDp_fold e dps (valid_nodup ok hp) (m.valves, [], m.pushed) id
    cases hd : Dict.get? dps id with
    | none => rw [hd] at hf; simp only at hf; rw [hf.2.1] at ha'; simp at ha'
    | some cfg =>
      rw [hd] at hf
      simp only at hf
      cases hv0 : m.valves.get? id with
      | none => simp only [hv0] at hf; rw [hf.2.1] at ha'; simp at ha'
      | some v0 =>
        simp only [hv0] at hf
        rw [hf.2.1] at ha'
        simp at ha'
        exact ⟨s, dps, v0, cfg, hp, Dict.mem_of_get? hd, rfl, ha'.1, ha'.2⟩

/-- A connection makes exactly that switch count. -/
theorem connect_applies (m : Mgr) (id id' : Nat) (v : Valve) (hv : m.valves.get? id = some v) :
    (m.connect id).applied.get? id' = if id = id' then some true else m.applied.get? id' := by
  unfold Mgr.connect
  rw [hv]
  show Dict.get? (Dict.set _ _ _) _ = _
  rw [Dict.get?_set]

end Faucet.Config
