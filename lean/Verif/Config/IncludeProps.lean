import Verif.Config.Include

/-! # Includes: properties (C32) -/

namespace Faucet.Config

open Faucet

/-! ## Specification -/

/-- Spec: what one event of the trace does to the recorded hashes. -/
def noteHash (fs : Dict Path Content) (h : Dict Path (Option Content)) (ev : Path × Bool) : Dict Path (Option Content) :=
  h.set ev.1 (if ev.2 then fs.get? ev.1 else none)

/-- Spec: the settings in the file at a path. -/
def fileSettings (e : Env) (fs : Dict Path Content) (p : Path) : List ((Nat × Nat) × Nat) :=
  match fs.get? p with
  | none => []
  | some c => match e.parse c with
    | .map d => d.settings
    | _ => []

/-- Spec: what one event of the trace does to the settings: a loaded file's settings override earlier ones. -/
def noteConf (e : Env) (fs : Dict Path Content) (t : Dict (Nat × Nat) Nat) (ev : Path × Bool) : Dict (Nat × Nat) Nat :=
  if ev.2 then update t (fileSettings e fs ev.1) else t

/-- Spec: `p` is a file that can be loaded, with this document. -/
def IsDoc (e : Env) (fs : Dict Path Content) (p : Path) (d : Doc) : Prop :=
  ∃ c, fs.get? p = some c ∧ e.parse c = .map d ∧ d.unknown = false ∧ d.badSection = false

/-- Spec: what a successful load of `p` looks like: a sequence of loaded and skipped files such that -/
structure Loaded (e : Env) (fs : Dict Path Content) (p : Path) (tr : List (Path × Bool)) : Prop where
  /-- the file itself is loaded first -/
  first : tr.head? = some (p, true)
  /-- loaded files exist and are valid; what they require is loaded; what they include optionally is loaded or skipped -/
  files : ∀ q, (q, true) ∈ tr → ∃ d is os, IsDoc e fs q d ∧ d.includes = some is ∧ d.optIncludes = some os ∧
    (∀ i ∈ is, (e.resolve q i, true) ∈ tr) ∧ (∀ o ∈ os, ∃ b, (e.resolve q o, b) ∈ tr)
  /-- everything after the first is there because a loaded file before it includes it; what is skipped is optional -/
  why : ∀ a q b rest, tr = a ++ (q, b) :: rest → a ≠ [] → ∃ r d, (r, true) ∈ a ∧ IsDoc e fs r d ∧
    ((b = true ∧ ∃ is, d.includes = some is ∧ ∃ i ∈ is, e.resolve r i = q) ∨
      ∃ os, d.optIncludes = some os ∧ ∃ o ∈ os, e.resolve r o = q)

/-! ## Failure changes nothing -/

/-- What a call does to the dictionaries, in terms of the trace. -/
def Play (e : Env) (fs : Dict Path Content) (s s' : St) (tr : List (Path × Bool)) : Prop :=
  s'.trace = s.trace ++ tr ∧ s'.hashes = tr.foldl (noteHash fs) s.hashes ∧ s'.confs = tr.foldl (noteConf e fs) s.confs

theorem Play.trans {e : Env} {fs : Dict Path Content} {s s' s'' : St} {t u : List (Path × Bool)} (h : Play e fs s s' t)
    (h' : Play e fs s' s'' u) : Play e fs s s'' (t ++ u) := by
  obtain ⟨a, b, c⟩ := h
  obtain ⟨a', b', c'⟩ := h'
  exact ⟨by rw [a', a, List.append_assoc], by rw [b', b, List.foldl_append], by rw [c', c, List.foldl_append]⟩

/-- **All or nothing.** A file that fails leaves the recorded files and the settings as they were. -/
theorem failed_include_changes_nothing {e : Env} {fs : Dict Path Content} {n : Nat} {s s' : St} {p : Path}
    (h : dpInclude e fs n s p = .done s' false) : s'.hashes = s.hashes ∧ s'.confs = s.confs ∧ s'.trace = s.trace := by
  have hfail : ∀ later, s.fail later = .done s' false → s'.hashes = s.hashes ∧ s'.confs = s.confs ∧ s'.trace = s.trace := by
    intro later h
    unfold St.fail at h
    simp only [Res.done.injEq, and_true] at h
    subst h
    exact ⟨rfl, rfl, rfl⟩
  cases n with
  | zero => simp [dpInclude] at h
  | succ n =>
    rw [dpInclude] at h
    cases hf : fs.get? p with
    | none => rw [hf] at h; simp at h; subst h; exact ⟨rfl, rfl, rfl⟩
    | some c =>
      rw [hf] at h
      cases hp : e.parse c with
      | bad => simp only [hp] at h; simp at h; subst h; exact ⟨rfl, rfl, rfl⟩
      | other => simp only [hp] at h; simp at h
      | map d =>
        simp only [hp] at h
        split at h
        · simp at h; subst h; exact ⟨rfl, rfl, rfl⟩
        · unfold incDoc at h
          split at h
          · exact hfail _ h
          · split at h
            · simp at h
            · simp at h
            · exact hfail _ h
            · split at h
              · exact hfail _ h
              · split at h
                · simp at h
                · simp at h
                · exact hfail _ h
                · simp at h

/-! ## Termination -/

/-- Files not yet recorded. -/
def unseen (fs : Dict Path Content) (h : Dict Path (Option Content)) : Nat :=
  (fs.keys.filter (fun q => !h.has q)).length

theorem has_iff {κ α : Type} [DecidableEq κ] {d : Dict κ α} {k : κ} : d.has k = true ↔ k ∈ d.keys :=
  Dict.get?_isSome_iff_mem_keys

theorem has_set {κ α : Type} [DecidableEq κ] {d : Dict κ α} {k q : κ} {v : α} (h : d.has q = true) : (d.set k v).has q = true := by
  rw [has_iff] at h ⊢
  exact Dict.mem_keys_set.2 (Or.inr h)

theorem filter_length_le {α : Type} {l : List α} {p q : α → Bool} (hpq : ∀ x ∈ l, p x = true → q x = true) :
    (l.filter p).length ≤ (l.filter q).length := by
  induction l with
  | nil => simp
  | cons c l ih =>
    have := ih (fun x hx => hpq x (List.mem_cons_of_mem _ hx))
    rw [List.filter_cons, List.filter_cons]
    by_cases hc : p c = true
    · rw [if_pos hc, if_pos (hpq c (by simp) hc)]; simp; omega
    · rw [if_neg hc]; split <;> simp <;> omega

theorem filter_length_lt {α : Type} {l : List α} {p q : α → Bool} (hpq : ∀ x ∈ l, p x = true → q x = true) {a : α} (ha : a ∈ l)
    (hq : q a = true) (hp : p a = false) : (l.filter p).length < (l.filter q).length := by
  induction l with
  | nil => simp at ha
  | cons b l ih =>
    have hle := filter_length_le (fun x hx => hpq x (List.mem_cons_of_mem _ hx))
    rcases List.mem_cons.1 ha with h | h
    · subst h
      rw [List.filter_cons, if_neg (by simp [hp]), List.filter_cons, if_pos hq]
      simp; omega
    · have := ih (fun x hx => hpq x (List.mem_cons_of_mem _ hx)) h
      rw [List.filter_cons, List.filter_cons]
      by_cases hc : p b = true
      · rw [if_pos hc, if_pos (hpq b (by simp) hc)]; simp; omega
      · rw [if_neg hc]; split <;> simp <;> omega

theorem unseen_mono {fs : Dict Path Content} {h h' : Dict Path (Option Content)} (hh : ∀ q, h.has q = true → h'.has q = true) :
    unseen fs h' ≤ unseen fs h := by
  unfold unseen
  apply filter_length_le
  intro q _ hq
  by_cases h1 : h.has q = true
  · simp [hh q h1] at hq
  · simp [h1]

theorem unseen_lt {fs : Dict Path Content} {h : Dict Path (Option Content)} {p : Path} {v : Option Content}
    (hf : (fs.get? p).isSome) (hp : h.has p = false) : unseen fs (h.set p v) < unseen fs h := by
  unfold unseen
  refine filter_length_lt ?_ (Dict.get?_isSome_iff_mem_keys.1 hf) (by simp [hp]) ?_
  · intro x _ hx
    by_cases h1 : h.has x = true
    · simp [has_set h1] at hx
    · simp [h1]
  · have : (h.set p v).has p = true := by unfold Dict.has; rw [Dict.get?_set_self]; rfl
    simp [this]

/-- The recorded files only grow. -/
theorem include_grows {e : Env} {fs : Dict Path Content} : ∀ (n : Nat) (s s' : St) (p : Path) (ok : Bool),
    dpInclude e fs n s p = .done s' ok → ∀ q, s.hashes.has q = true → s'.hashes.has q = true := by
  intro n
  induction n with
  | zero => intro s s' p ok h; simp [dpInclude] at h
  | succ n ih =>
    have hitems : ∀ known req l (s s' : St) ok, incItems (dpInclude e fs n) known req l s = .done s' ok →
        ∀ q, s.hashes.has q = true → s'.hashes.has q = true := by
      intro known req l
      induction l with
      | nil => intro s s' ok h q hq; simp [incItems] at h; rw [← h.1]; exact hq
      | cons x l ihl =>
        intro s s' ok h q hq
        rw [incItems] at h
        split at h
        · simp at h; rw [← h.1]; exact hq
        · split at h
          · simp at h
          · simp at h
          · rename_i s1 h1
            exact ihl _ _ _ h q (ih _ _ _ _ h1 q hq)
          · rename_i s1 h1
            split at h
            · simp at h; rw [← h.1]; exact ih _ _ _ _ h1 q hq
            · exact ihl _ _ _ h q (by unfold St.skip; exact has_set (ih _ _ _ _ h1 q hq))
    intro s s' p ok h q hq
    cases ok with
    | false => rw [(failed_include_changes_nothing h).1]; exact hq
    | true =>
      rw [dpInclude] at h
      split at h
      · simp at h
      · split at h
        · simp at h
        · simp at h
        · split at h
          · simp at h
          · unfold incDoc at h
            split at h
            · simp [St.fail] at h
            · split at h
              · simp at h
              · simp at h
              · simp [St.fail] at h
              · rename_i s1 h1
                split at h
                · simp [St.fail] at h
                · split at h
                  · simp at h
                  · simp at h
                  · simp [St.fail] at h
                  · rename_i s2 h2
                    simp at h
                    rw [← h]
                    refine hitems _ _ _ _ _ _ h2 q (hitems _ _ _ _ _ _ h1 q ?_)
                    unfold St.enter
                    exact has_set hq

/-- Depth of recursion that is enough for a file. -/
def depth (fs : Dict Path Content) (h : Dict Path (Option Content)) (p : Path) : Nat :=
  2 * unseen fs h + (if h.has p then 1 else 0)

theorem include_not_deep {e : Env} {fs : Dict Path Content} : ∀ (n : Nat) (s : St) (p : Path), depth fs s.hashes p < n →
    dpInclude e fs n s p ≠ .deep := by
  intro n
  induction n with
  | zero => intro s p h; omega
  | succ n ih =>
    intro s p hd
    rw [dpInclude]
    cases hf : fs.get? p with
    | none => simp
    | some c =>
      simp only
      cases hp : e.parse c with
      | bad => simp
      | other => simp
      | map d =>
        simp only
        split
        · simp
        · -- any list of files not recorded on entry can be processed
          have hitems : ∀ req l (s1 : St), (∀ q, (s.hashes.set p (some c)).has q = true → s1.hashes.has q = true) →
              incItems (dpInclude e fs n) s.hashes req l s1 ≠ .deep := by
            intro req l
            induction l with
            | nil => intro s1 _; simp [incItems]
            | cons x l ihl =>
              intro s1 hs1
              rw [incItems]
              by_cases hk : s.hashes.has x = true
              · rw [if_pos hk]; simp
              · rw [if_neg hk]
                have : dpInclude e fs n s1 x ≠ .deep := by
                  unfold depth at hd
                  have h1 := unseen_mono (fs := fs) hs1
                  by_cases hxf : (fs.get? x).isSome
                  · apply ih
                    unfold depth
                    by_cases hpin : s.hashes.has p = true
                    · rw [if_pos hpin] at hd
                      have h2 : unseen fs (s.hashes.set p (some c)) ≤ unseen fs s.hashes :=
                        unseen_mono (fun q hq => has_set hq)
                      by_cases hx : s1.hashes.has x = true
                      · rw [if_pos hx]
                        have : unseen fs s1.hashes < unseen fs s.hashes := by
                          unfold unseen
                          refine filter_length_lt ?_ (Dict.get?_isSome_iff_mem_keys.1 hxf) (by simpa using hk) (by simp [hx])
                          intro y _ hy
                          by_cases h3 : s.hashes.has y = true
                          · simp [hs1 y (has_set h3)] at hy
                          · simp [h3]
                        omega
                      · rw [if_neg hx]; omega
                    · rw [if_neg hpin] at hd
                      have h2 := unseen_lt (v := some c) (by rw [hf]; rfl) (by simpa using hpin)
                      split <;> omega
                  · have hn : n ≠ 0 := by
                      by_cases hpin : s.hashes.has p = true
                      · rw [if_pos hpin] at hd; omega
                      · have h2 := unseen_lt (v := some c) (by rw [hf]; rfl) (by simpa using hpin)
                        omega
                    obtain ⟨m, rfl⟩ := Nat.exists_eq_succ_of_ne_zero hn
                    rw [dpInclude]
                    have : fs.get? x = none := by simpa using hxf
                    rw [this]; simp
                split
                · contradiction
                · simp
                · rename_i s2 h2
                  exact ihl s2 (fun q hq => include_grows n _ _ _ _ h2 q (hs1 q hq))
                · rename_i s2 h2
                  split
                  · simp
                  · exact ihl _ (fun q hq => by unfold St.skip; exact has_set (include_grows n _ _ _ _ h2 q (hs1 q hq)))
          unfold incDoc
          split
          · simp [St.fail]
          · rename_i is _
            have h1 := hitems true (is.map (e.resolve p)) (s.enter p c d) (fun q hq => hq)
            split
            · contradiction
            · simp
            · simp [St.fail]
            · rename_i s1 hs1
              split
              · simp [St.fail]
              · rename_i os _
                have hg : ∀ req l (a b : St) ok, incItems (dpInclude e fs n) s.hashes req l a = .done b ok →
                    ∀ q, a.hashes.has q = true → b.hashes.has q = true := by
                  intro req l
                  induction l with
                  | nil => intro a b ok h q hq; simp [incItems] at h; rw [← h.1]; exact hq
                  | cons x l ihl =>
                    intro a b ok h q hq
                    rw [incItems] at h
                    split at h
                    · simp at h; rw [← h.1]; exact hq
                    · split at h
                      · simp at h
                      · simp at h
                      · rename_i h1; exact ihl _ _ _ h q (include_grows n _ _ _ _ h1 q hq)
                      · rename_i h1
                        split at h
                        · simp at h; rw [← h.1]; exact include_grows n _ _ _ _ h1 q hq
                        · exact ihl _ _ _ h q (by unfold St.skip; exact has_set (include_grows n _ _ _ _ h1 q hq))
                have h2 := hitems false (os.map (e.resolve p)) s1 (hg _ _ _ _ _ hs1)
                split
                · contradiction
                · simp
                · simp [St.fail]
                · simp

theorem incItems_congr {r r' : St → Path → Res} (h : ∀ s q, r s q ≠ .deep → r' s q = r s q) (known : Dict Path (Option Content))
    (req : Bool) (l : List Path) (s : St) (hd : incItems r known req l s ≠ .deep) :
    incItems r' known req l s = incItems r known req l s := by
  induction l generalizing s with
  | nil => rfl
  | cons x l ih =>
    rw [incItems] at hd ⊢
    conv => rhs; rw [incItems]
    by_cases hk : known.has x = true
    · rw [if_pos hk, if_pos hk]
    · rw [if_neg hk] at hd ⊢
      rw [if_neg hk]
      cases hr : r s x with
      | deep => rw [hr] at hd; simp at hd
      | raised => rw [h s x (by rw [hr]; simp), hr]
      | done s1 ok =>
        rw [hr] at hd
        rw [h s x (by rw [hr]; simp), hr]
        cases ok with
        | true => exact ih s1 hd
        | false =>
          simp only at hd ⊢
          split
          · rfl
          · rename_i hq
            rw [if_neg hq] at hd
            exact ih _ hd

theorem incDoc_congr {r r' : St → Path → Res} (h : ∀ s q, r s q ≠ .deep → r' s q = r s q) (rs : Path → Nat → Path) (s : St)
    (p : Path) (c : Content) (d : Doc) (hd : incDoc r rs s p c d ≠ .deep) : incDoc r' rs s p c d = incDoc r rs s p c d := by
  unfold incDoc at hd ⊢
  cases hi : d.includes with
  | none => rfl
  | some is =>
    simp only [hi] at hd ⊢
    have h1 : incItems r s.hashes true (is.map (rs p)) (s.enter p c d) ≠ .deep := by
      intro he; rw [he] at hd; simp at hd
    rw [incItems_congr h _ _ _ _ h1]
    cases hr : incItems r s.hashes true (is.map (rs p)) (s.enter p c d) with
    | deep => rfl
    | raised => rfl
    | done s1 ok =>
      rw [hr] at hd
      cases ok with
      | false => rfl
      | true =>
        cases ho : d.optIncludes with
        | none => rfl
        | some os =>
          simp only [ho] at hd ⊢
          have h2 : incItems r s.hashes false (os.map (rs p)) s1 ≠ .deep := by
            intro he; rw [he] at hd; simp at hd
          rw [incItems_congr h _ _ _ _ h2]

theorem include_more {e : Env} {fs : Dict Path Content} : ∀ (n : Nat) (s : St) (p : Path), dpInclude e fs n s p ≠ .deep →
    dpInclude e fs (n + 1) s p = dpInclude e fs n s p := by
  intro n
  induction n with
  | zero => intro s p h; simp [dpInclude] at h
  | succ n ih =>
    intro s p h
    rw [dpInclude] at h ⊢
    conv => rhs; rw [dpInclude]
    cases hf : fs.get? p with
    | none => rfl
    | some c =>
      simp only [hf] at h ⊢
      cases hp : e.parse c with
      | bad => rfl
      | other => rfl
      | map d =>
        simp only [hp] at h ⊢
        split
        · rfl
        · rename_i hu
          rw [if_neg hu] at h
          exact incDoc_congr ih _ _ _ _ _ h

/-- **Loading terminates.** Whatever the include directives, cyclic ones included, a recursion depth of twice the number of
files plus two is enough, and more depth gives the same result. -/
theorem include_terminates (e : Env) (fs : Dict Path Content) (s : St) (p : Path) :
    ∃ r, r ≠ .deep ∧ ∀ n, 2 * fs.length + 2 ≤ n → dpInclude e fs n s p = r := by
  have hb : depth fs s.hashes p < 2 * fs.length + 2 := by
    unfold depth unseen
    have : (fs.keys.filter (fun q => !s.hashes.has q)).length ≤ fs.length := by
      refine Nat.le_trans (List.length_filter_le _ _) ?_
      unfold Dict.keys; simp
    split <;> omega
  refine ⟨dpInclude e fs (2 * fs.length + 2) s p, include_not_deep _ s p hb, ?_⟩
  intro n hn
  obtain ⟨k, rfl⟩ := Nat.exists_eq_add_of_le hn
  induction k with
  | zero => rfl
  | succ k ih =>
    rw [← ih (by omega)]
    exact include_more (2 * fs.length + 2 + k) s p (include_not_deep _ s p (by omega))

/-! ## What is loaded -/

/-- Every event of `tr` is explained by a file loaded before it, in `pre` or in `tr`. -/
def Why (e : Env) (fs : Dict Path Content) (pre tr : List (Path × Bool)) : Prop :=
  ∀ a q b rest, tr = a ++ (q, b) :: rest → ∃ r d, (r, true) ∈ pre ++ a ∧ IsDoc e fs r d ∧
    ((b = true ∧ ∃ is, d.includes = some is ∧ ∃ i ∈ is, e.resolve r i = q) ∨
      ∃ os, d.optIncludes = some os ∧ ∃ o ∈ os, e.resolve r o = q)

/-- Every loaded file of `tr` is valid and what it includes is in `tr`. -/
def Closed (e : Env) (fs : Dict Path Content) (tr : List (Path × Bool)) : Prop :=
  ∀ q, (q, true) ∈ tr → ∃ d is os, IsDoc e fs q d ∧ d.includes = some is ∧ d.optIncludes = some os ∧
    (∀ i ∈ is, (e.resolve q i, true) ∈ tr) ∧ (∀ o ∈ os, ∃ b, (e.resolve q o, b) ∈ tr)

theorem Closed.append {e : Env} {fs : Dict Path Content} {t u : List (Path × Bool)} (ht : Closed e fs t) (hu : Closed e fs u) :
    Closed e fs (t ++ u) := by
  intro q hq
  rcases List.mem_append.1 hq with hq | hq
  · obtain ⟨d, is, os, h1, h2, h3, h4, h5⟩ := ht q hq
    exact ⟨d, is, os, h1, h2, h3, fun i hi => List.mem_append_left _ (h4 i hi),
      fun o ho => (h5 o ho).imp fun b hb => List.mem_append_left _ hb⟩
  · obtain ⟨d, is, os, h1, h2, h3, h4, h5⟩ := hu q hq
    exact ⟨d, is, os, h1, h2, h3, fun i hi => List.mem_append_right _ (h4 i hi),
      fun o ho => (h5 o ho).imp fun b hb => List.mem_append_right _ hb⟩

theorem Why.append {e : Env} {fs : Dict Path Content} {pre t u : List (Path × Bool)} (ht : Why e fs pre t)
    (hu : Why e fs (pre ++ t) u) : Why e fs pre (t ++ u) := by
  intro a q b rest he
  rcases List.append_eq_append_iff.1 he with ⟨x, hx1, hx2⟩ | ⟨x, hx1, hx2⟩
  · obtain ⟨r, d, h1, h2⟩ := hu x q b rest hx2
    exact ⟨r, d, by rw [hx1, ← List.append_assoc]; exact h1, h2⟩
  · cases x with
    | nil =>
      simp only [List.nil_append] at hx2
      obtain ⟨r, d, h1, h2⟩ := hu [] q b rest hx2.symm
      refine ⟨r, d, ?_, h2⟩
      simp only [List.append_nil] at h1 hx1
      rw [← hx1]; exact h1
    | cons y x =>
      simp only [List.cons_append, List.cons.injEq] at hx2
      obtain ⟨rfl, _⟩ := hx2
      exact ht a q b x hx1

/-- The trace of a loaded file, entered from a file that includes it. -/
theorem Loaded.why' {e : Env} {fs : Dict Path Content} {pre tr : List (Path × Bool)} {q : Path} (h : Loaded e fs q tr)
    (hq : ∃ r d, (r, true) ∈ pre ∧ IsDoc e fs r d ∧ ((∃ is, d.includes = some is ∧ ∃ i ∈ is, e.resolve r i = q) ∨
      ∃ os, d.optIncludes = some os ∧ ∃ o ∈ os, e.resolve r o = q)) : Why e fs pre tr := by
  intro a x b rest he
  cases a with
  | nil =>
    have hf := h.first
    rw [he] at hf
    simp at hf
    obtain ⟨rfl, rfl⟩ := hf
    obtain ⟨r, d, h1, h2, h3⟩ := hq
    exact ⟨r, d, by simpa using h1, h2, h3.imp (fun h => ⟨rfl, h⟩) id⟩
  | cons y a =>
    obtain ⟨r, d, h1, h2, h3⟩ := h.why _ x b rest he (by simp)
    exact ⟨r, d, List.mem_append_right _ h1, h2, h3⟩

theorem incItems_plays {e : Env} {fs : Dict Path Content} {rec : St → Path → Res}
    (hrec : ∀ s s' q, rec s q = .done s' true → ∃ tr, Play e fs s s' tr ∧ Loaded e fs q tr)
    (hfail : ∀ s s' q, rec s q = .done s' false → s'.hashes = s.hashes ∧ s'.confs = s.confs ∧ s'.trace = s.trace)
    {known : Dict Path (Option Content)} {req : Bool} {p : Path} {d : Doc} (hd : IsDoc e fs p d) (l : List Path)
    (hl : ∀ q ∈ l, if req then (∃ is, d.includes = some is ∧ ∃ i ∈ is, e.resolve p i = q) else
      ∃ os, d.optIncludes = some os ∧ ∃ o ∈ os, e.resolve p o = q) (pre : List (Path × Bool)) (hpre : (p, true) ∈ pre)
    {s s' : St} (h : incItems rec known req l s = .done s' true) :
    ∃ tr, Play e fs s s' tr ∧ Closed e fs tr ∧ Why e fs pre tr ∧
      (∀ q ∈ l, ∃ b, (q, b) ∈ tr ∧ (req = true → b = true)) := by
  induction l generalizing s pre with
  | nil =>
    simp only [incItems, Res.done.injEq, and_true] at h
    subst h
    exact ⟨[], ⟨by simp, rfl, rfl⟩, by intro q hq; simp at hq, by intro a q b rest he; simp at he, by simp⟩
  | cons x l ih =>
    rw [incItems] at h
    split at h
    · simp at h
    · split at h
      · simp at h
      · simp at h
      · rename_i s1 h1
        obtain ⟨t, ht1, ht2⟩ := hrec _ _ _ h1
        obtain ⟨u, hu1, hu2, hu3, hu4⟩ := ih (fun q hq => hl q (by simp [hq])) (pre ++ t) (by simp [hpre]) h
        refine ⟨t ++ u, ht1.trans hu1, Closed.append ht2.files hu2, Why.append (ht2.why' ?_) hu3, ?_⟩
        · have := hl x (by simp)
          refine ⟨p, d, hpre, hd, ?_⟩
          split at this
          · exact Or.inl this
          · exact Or.inr this
        · intro q hq
          rcases List.mem_cons.1 hq with hq | hq
          · subst hq
            refine ⟨true, List.mem_append_left _ ?_, fun _ => rfl⟩
            cases t with
            | nil => have := ht2.first; simp at this
            | cons y t => have := ht2.first; simp at this; simp [this]
          · obtain ⟨b, hb1, hb2⟩ := hu4 q hq
            exact ⟨b, List.mem_append_right _ hb1, hb2⟩
      · rename_i s1 h1
        split at h
        · simp at h
        · rename_i hreq
          obtain ⟨f1, f2, f3⟩ := hfail _ _ _ h1
          obtain ⟨u, hu1, hu2, hu3, hu4⟩ := ih (fun q hq => hl q (by simp [hq])) (pre ++ [(x, false)]) (by simp [hpre]) h
          have hp0 : Play e fs s (s1.skip x) [(x, false)] := by
            refine ⟨?_, ?_, ?_⟩
            · show s1.trace ++ _ = _; rw [f3]
            · show s1.hashes.set x none = _; rw [f1]; rfl
            · show s1.confs = _; rw [f2]; rfl
          refine ⟨[(x, false)] ++ u, hp0.trans hu1, Closed.append ?_ hu2, Why.append ?_ hu3, ?_⟩
          · intro q hq; simp at hq
          · intro a q b rest he
            have := hl x (by simp)
            rw [if_neg hreq] at this
            cases a with
            | nil =>
              simp at he
              obtain ⟨⟨rfl, _⟩, _⟩ := he
              exact ⟨p, d, by simpa using hpre, hd, Or.inr this⟩
            | cons y a => simp at he
          · intro q hq
            rcases List.mem_cons.1 hq with hq | hq
            · subst hq
              exact ⟨false, by simp, fun hr => absurd hr hreq⟩
            · obtain ⟨b, hb1, hb2⟩ := hu4 q hq
              exact ⟨b, List.mem_append_right _ hb1, hb2⟩

theorem include_plays {e : Env} {fs : Dict Path Content} : ∀ (n : Nat) (s s' : St) (p : Path),
    dpInclude e fs n s p = .done s' true → ∃ tr, Play e fs s s' tr ∧ Loaded e fs p tr := by
  intro n
  induction n with
  | zero => intro s s' p h; simp [dpInclude] at h
  | succ n ih =>
    intro s s' p h
    rw [dpInclude] at h
    split at h
    · simp at h
    · rename_i c hc
      split at h
      · simp at h
      · simp at h
      · rename_i d hp
        split at h
        · simp at h
        · rename_i hu
          have hu' : d.unknown = false ∧ d.badSection = false := by simpa using hu
          have hdoc : IsDoc e fs p d := ⟨c, hc, hp, hu'.1, hu'.2⟩
          unfold incDoc at h
          split at h
          · simp [St.fail] at h
          · rename_i is his
            split at h
            · simp at h
            · simp at h
            · simp [St.fail] at h
            · rename_i s1 h1
              split at h
              · simp [St.fail] at h
              · rename_i os hos
                split at h
                · simp at h
                · simp at h
                · simp [St.fail] at h
                · rename_i s2 h2
                  simp at h
                  obtain ⟨t, t1, t2, t3, t4⟩ := incItems_plays ih (fun _ _ _ h => failed_include_changes_nothing h) hdoc _
                    (by intro q hq; rw [if_pos rfl]; obtain ⟨i, hi, rfl⟩ := List.mem_map.1 hq; exact ⟨is, his, i, hi, rfl⟩)
                    [(p, true)] (by simp) h1
                  obtain ⟨u, u1, u2, u3, u4⟩ := incItems_plays ih (fun _ _ _ h => failed_include_changes_nothing h) hdoc _
                    (by intro q hq; rw [if_neg (by simp)]; obtain ⟨i, hi, rfl⟩ := List.mem_map.1 hq; exact ⟨os, hos, i, hi, rfl⟩)
                    ([(p, true)] ++ t) (by simp) h2
                  have p0 : Play e fs s (s.enter p c d) [(p, true)] := by
                    refine ⟨rfl, ?_, ?_⟩
                    · show _ = Dict.set _ _ _; rw [if_pos rfl, hc]; rfl
                    · simp [noteConf, fileSettings, hc, hp, St.enter]
                  refine ⟨(p, true) :: (t ++ u), ?_, ?_⟩
                  · have := p0.trans (t1.trans u1)
                    rw [← h]
                    exact this
                  · refine ⟨rfl, ?_, ?_⟩
                    · intro q hq
                      rcases List.mem_cons.1 hq with hq | hq
                      · simp at hq
                        subst hq
                        refine ⟨d, is, os, hdoc, his, hos, ?_, ?_⟩
                        · intro i hi
                          obtain ⟨b, hb1, hb2⟩ := t4 _ (List.mem_map.2 ⟨i, hi, rfl⟩)
                          rw [hb2 rfl] at hb1
                          exact List.mem_cons_of_mem _ (List.mem_append_left _ hb1)
                        · intro o ho
                          obtain ⟨b, hb1, _⟩ := u4 _ (List.mem_map.2 ⟨o, ho, rfl⟩)
                          exact ⟨b, List.mem_cons_of_mem _ (List.mem_append_right _ hb1)⟩
                      · obtain ⟨d', is', os', g1, g2, g3, g4, g5⟩ := Closed.append t2 u2 q hq
                        exact ⟨d', is', os', g1, g2, g3, fun i hi => List.mem_cons_of_mem _ (g4 i hi),
                          fun o ho => (g5 o ho).imp fun b hb => List.mem_cons_of_mem _ hb⟩
                    · intro a q b rest he ha
                      cases a with
                      | nil => exact absurd rfl ha
                      | cons y a =>
                        simp only [List.cons_append, List.cons.injEq] at he
                        obtain ⟨rfl, he⟩ := he
                        exact Why.append t3 u3 a q b rest he

/-- **What a configuration is made of.** If a file loads, the settings are those of the loaded files applied in the order
they were entered, starting from nothing; the loaded files are that file and, recursively, what it includes, each of them
valid with all it requires; skipped optional files contribute nothing. The recorded files are exactly those. -/
theorem settings_of_loaded_files {e : Env} {fs : Dict Path Content} {n : Nat} {s' : St} {p : Path}
    (h : dpInclude e fs n {} p = .done s' true) :
    Loaded e fs p s'.trace ∧ s'.confs = s'.trace.foldl (noteConf e fs) [] ∧
      s'.hashes = s'.trace.foldl (noteHash fs) [] := by
  obtain ⟨tr, ⟨h1, h2, h3⟩, h4⟩ := include_plays n _ _ _ h
  simp at h1
  subst h1
  exact ⟨h4, h3, h2⟩

/-! ## The recorded files determine the result -/

def Same (s t : St) : Prop := s.hashes = t.hashes ∧ s.confs = t.confs ∧ s.trace = t.trace

/-- The second file system looks the same to a load with this trace: loaded files have the same content and skipped ones
are missing. -/
def Agree (fs fs2 : Dict Path Content) (tr : List (Path × Bool)) : Prop :=
  (∀ q, (q, true) ∈ tr → fs2.get? q = fs.get? q) ∧ ∀ q, (q, false) ∈ tr → fs2.get? q = none

theorem Agree.left {fs fs2 : Dict Path Content} {a b : List (Path × Bool)} (h : Agree fs fs2 (a ++ b)) : Agree fs fs2 a :=
  ⟨fun q hq => h.1 q (List.mem_append_left _ hq), fun q hq => h.2 q (List.mem_append_left _ hq)⟩

theorem Agree.right {fs fs2 : Dict Path Content} {a b : List (Path × Bool)} (h : Agree fs fs2 (a ++ b)) : Agree fs fs2 b :=
  ⟨fun q hq => h.1 q (List.mem_append_right _ hq), fun q hq => h.2 q (List.mem_append_right _ hq)⟩

/-- The trace only grows. -/
theorem items_trace {e : Env} {fs : Dict Path Content} {n : Nat} {known : Dict Path (Option Content)} {req : Bool} {l : List Path}
    {s s' : St} (h : incItems (dpInclude e fs n) known req l s = .done s' true) : ∃ tr, s'.trace = s.trace ++ tr := by
  induction l generalizing s with
  | nil => simp only [incItems, Res.done.injEq, and_true] at h; subst h; exact ⟨[], by simp⟩
  | cons x l ih =>
    rw [incItems] at h
    split at h
    · simp at h
    · split at h
      · simp at h
      · simp at h
      · rename_i s1 h1
        obtain ⟨t, ht, _⟩ := include_plays _ _ _ _ h1
        obtain ⟨u, hu⟩ := ih h
        exact ⟨t ++ u, by rw [hu, ht.1, List.append_assoc]⟩
      · rename_i s1 h1
        split at h
        · simp at h
        · obtain ⟨u, hu⟩ := ih h
          refine ⟨[(x, false)] ++ u, ?_⟩
          rw [hu]
          show (s1.trace ++ _) ++ _ = _
          rw [(failed_include_changes_nothing h1).2.2, List.append_assoc]

theorem items_same {e : Env} {fs fs2 : Dict Path Content} {n : Nat}
    (ih : ∀ (s t s' : St) (p : Path) (tr : List (Path × Bool)), Same s t → dpInclude e fs n s p = .done s' true →
      s'.trace = s.trace ++ tr → Agree fs fs2 tr → ∃ t', dpInclude e fs2 n t p = .done t' true ∧ Same s' t')
    {known : Dict Path (Option Content)} {req : Bool} (l : List Path) {s t s' : St} {tr : List (Path × Bool)} (hst : Same s t)
    (h : incItems (dpInclude e fs n) known req l s = .done s' true) (htr : s'.trace = s.trace ++ tr) (ha : Agree fs fs2 tr) :
    ∃ t', incItems (dpInclude e fs2 n) known req l t = .done t' true ∧ Same s' t' := by
  induction l generalizing s t tr with
  | nil =>
    simp only [incItems, Res.done.injEq, and_true] at h
    subst h
    exact ⟨t, rfl, hst⟩
  | cons x l ihl =>
    rw [incItems] at h
    rw [incItems]
    by_cases hk : known.has x = true
    · rw [if_pos hk] at h; simp at h
    · rw [if_neg hk] at h ⊢
      split at h
      · simp at h
      · simp at h
      · rename_i s1 h1
        obtain ⟨a, hpa, _⟩ := include_plays _ _ _ _ h1
        obtain ⟨b, hb⟩ := items_trace h
        have : tr = a ++ b := by
          rw [hb, hpa.1, List.append_assoc] at htr
          exact (List.append_cancel_left htr).symm
        subst this
        obtain ⟨t1, ht1, hs1⟩ := ih s t s1 x a hst h1 hpa.1 ha.left
        rw [ht1]
        exact ihl hs1 h hb ha.right
      · rename_i s1 h1
        obtain ⟨f1, f2, f3⟩ := failed_include_changes_nothing h1
        split at h
        · simp at h
        · rename_i hreq
          obtain ⟨b, hb⟩ := items_trace h
          have : tr = [(x, false)] ++ b := by
            rw [hb] at htr
            have e1 : (s1.skip x).trace = s.trace ++ [(x, false)] := by show s1.trace ++ _ = _; rw [f3]
            rw [e1, List.append_assoc] at htr
            exact (List.append_cancel_left htr).symm
          subst this
          have hx : fs2.get? x = none := ha.2 x (by simp)
          have hx2 : dpInclude e fs2 n t x = .done t false := by
            cases n with
            | zero => simp [dpInclude] at h1
            | succ n => rw [dpInclude, hx]
          rw [hx2]
          simp only
          rw [if_neg hreq]
          refine ihl ?_ h hb ha.right
          refine ⟨?_, ?_, ?_⟩
          · show s1.hashes.set x none = t.hashes.set x none; rw [f1, hst.1]
          · show s1.confs = t.confs; rw [f2, hst.2.1]
          · show s1.trace ++ _ = t.trace ++ _; rw [f3, hst.2.2]

theorem include_same {e : Env} {fs fs2 : Dict Path Content} : ∀ (n : Nat) (s t s' : St) (p : Path) (tr : List (Path × Bool)),
    Same s t → dpInclude e fs n s p = .done s' true → s'.trace = s.trace ++ tr → Agree fs fs2 tr →
    ∃ t', dpInclude e fs2 n t p = .done t' true ∧ Same s' t' := by
  intro n
  induction n with
  | zero => intro s t s' p tr _ h; simp [dpInclude] at h
  | succ n ih =>
    intro s t s' p tr hst h htr ha
    have hpin : (p, true) ∈ tr := by
      obtain ⟨u, hu, hl⟩ := include_plays _ _ _ _ h
      have : tr = u := by rw [hu.1] at htr; exact (List.append_cancel_left htr).symm
      subst this
      cases tr with
      | nil => have := hl.first; simp at this
      | cons y t => have := hl.first; simp at this; simp [this]
    rw [dpInclude] at h
    rw [dpInclude, ha.1 p hpin]
    cases hf : fs.get? p with
    | none => rw [hf] at h; simp at h
    | some c =>
      simp only [hf] at h ⊢
      cases hp : e.parse c with
      | bad => rw [hp] at h; simp at h
      | other => rw [hp] at h; simp at h
      | map d =>
        simp only [hp] at h ⊢
        by_cases hu : (d.unknown || d.badSection) = true
        · rw [if_pos hu] at h; simp at h
        · rw [if_neg hu] at h ⊢
          unfold incDoc at h ⊢
          cases hi : d.includes with
          | none => simp [hi, St.fail] at h
          | some is =>
            simp only [hi] at h ⊢
            split at h
            · simp at h
            · simp at h
            · simp [St.fail] at h
            · rename_i s1 h1
              cases ho : d.optIncludes with
              | none => simp [ho, St.fail] at h
              | some os =>
                simp only [ho] at h
                split at h
                · simp at h
                · simp at h
                · simp [St.fail] at h
                · rename_i s2 h2
                  simp at h
                  obtain ⟨a, hta⟩ := items_trace h1
                  obtain ⟨b, htb⟩ := items_trace h2
                  have : tr = [(p, true)] ++ (a ++ b) := by
                    rw [← h] at htr
                    have e1 : (s.enter p c d).trace = s.trace ++ [(p, true)] := rfl
                    have htr' : s2.trace = s.trace ++ tr := htr
                    rw [htb, hta, e1, List.append_assoc, List.append_assoc] at htr'
                    exact (List.append_cancel_left htr').symm
                  subst this
                  have hse : Same (s.enter p c d) (t.enter p c d) := by
                    obtain ⟨q1, q2, q3⟩ := hst
                    refine ⟨?_, ?_, ?_⟩
                    · show s.hashes.set _ _ = t.hashes.set _ _; rw [q1]
                    · show update s.confs _ = update t.confs _; rw [q2]
                    · show s.trace ++ _ = t.trace ++ _; rw [q3]
                  obtain ⟨t1, ht1, hs1⟩ := items_same ih _ hse h1 hta ha.right.left
                  rw [← hst.1, ht1]
                  obtain ⟨t2, ht2, hs2⟩ := items_same ih _ hs1 h2 htb ha.right.right
                  simp only
                  rw [ht2]
                  refine ⟨_, rfl, ?_⟩
                  rw [← h]
                  exact hs2

/-! ## Examples and defects -/

/-- Contents are small numbers: 1 is the main file, including file 2 and optionally 3 and 4; 2 includes 5; 4 requires the
missing 9; 3 is fine. -/
def exParse : Content → Yaml
  | 1 => .map { settings := [((0, 1), 10), ((1, 1), 11)], includes := some [2], optIncludes := some [3, 4] }
  | 2 => .map { settings := [((0, 1), 20)], includes := some [5] }
  | 3 => .map { settings := [((0, 3), 30)] }
  | 4 => .map { settings := [((0, 4), 40)], includes := some [5, 9] }
  | 5 => .map { settings := [((0, 5), 50)] }
  | 6 => .map { settings := [((0, 6), 60)], includes := some [7] }
  | 7 => .map { settings := [((0, 7), 70)], includes := some [6] }
  | 8 => .map { settings := [((0, 8), 80)], optIncludes := some [9, 10] }
  | 10 => .map { settings := [((1, 0), 100)], optIncludes := some [9] }
  | 11 => .map { settings := [((1, 1), 110)], includes := some [12, 13] }
  | 12 => .map { settings := [((1, 2), 120)], includes := some [5] }
  | 13 => .map { settings := [((1, 3), 130)], includes := some [5] }
  | 14 => .map { settings := [((1, 4), 140)], includes := some [15] }
  | 15 => .other
  | 16 => .map { settings := [((1, 6), 160)], optIncludes := some [16] }
  | _ => .bad

def exEnv : Env := ⟨exParse, fun _ n => n⟩

/-- Every file at the path of the same number, except 9, which is missing. -/
def exFs : Dict Path Content := [(1, 1), (2, 2), (3, 3), (4, 4), (5, 5), (6, 6), (7, 7), (8, 8), (10, 10), (11, 11), (12, 12),
  (13, 13), (14, 14), (15, 15), (16, 16)]

/-- The main file loads; 4 is skipped and contributes nothing. -/
example : (loadTop exEnv exFs 1).ok = some true ∧
    (loadTop exEnv exFs 1).st.trace = [(1, true), (2, true), (5, true), (3, true), (4, false)] ∧
    (loadTop exEnv exFs 1).st.confs = [((0, 1), 20), ((1, 1), 11), ((0, 5), 50), ((0, 3), 30)] := by decide +kernel

/-- A cycle of required includes is refused. -/
example : (loadTop exEnv exFs 6).ok = some false := by decide +kernel

/-- An optional include that is missing does not leave the result as if it were absent: if two files of a configuration
both name it, the second is refused as an include loop and its settings are lost; without the first mention they are not. -/
theorem shared_missing_optional_defect : ∃ (e e' : Env) (fs : Dict Path Content) (d : Doc),
    e.parse 8 = .map d ∧ d.optIncludes = some [9, 10] ∧ e'.parse 8 = .map { d with optIncludes := some [10] } ∧
    (∀ c, c ≠ 8 → e'.parse c = e.parse c) ∧ e'.resolve = e.resolve ∧ fs.get? 9 = none ∧
    (loadTop e fs 8).ok = some true ∧ (loadTop e' fs 8).ok = some true ∧
    (loadTop e fs 8).st.confs.get? (1, 0) = none ∧ (loadTop e' fs 8).st.confs.get? (1, 0) = some 100 := by
  refine ⟨exEnv, ⟨fun c => if c = 8 then (Yaml.map (Doc.mk true false false [((0, 8), 80)] (some []) (some [10]))) else exParse c,
    fun _ n => n⟩, exFs, _, rfl, rfl, rfl, ?_, rfl, by decide, by decide +kernel, by decide +kernel, by decide +kernel,
    by decide +kernel⟩
  intro c hc
  show (if c = 8 then _ else _) = _
  rw [if_neg hc]; rfl

/-- Two files including the same third file make the configuration invalid, although there is no loop. -/
theorem diamond_include_rejected_defect : (loadTop exEnv exFs 11).ok = some false := by decide +kernel

/-- An included file that is YAML but not a mapping (a list, say) is not reported as a bad configuration: it raises. -/
theorem include_not_mapping_raises_defect : loadTop exEnv exFs 14 = .raised := by decide +kernel

/-- The content of a file that is only reached through a file that fails is kept all the same. -/
theorem failed_include_content_kept_defect : (loadTop exEnv exFs 4).ok = some false ∧
    (loadTop exEnv exFs 4).st.contents.get? 5 = some 5 := by decide +kernel

/-- A file that includes itself optionally loads, and is recorded as not loaded. -/
theorem optional_self_include_defect : (loadTop exEnv exFs 16).ok = some true ∧
    (loadTop exEnv exFs 16).st.hashes.get? 16 = some none := by decide +kernel

end Faucet.Config
