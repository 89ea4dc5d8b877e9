import Verif.Base.Dict
import Mathlib.Data.List.Perm.Subperm
import Mathlib.Data.List.Nodup
import Mathlib.Tactic.ByContra

/-!
# Gauge: flow counts for Prometheus, and flow table dumps

Model of `GaugeFlowTablePrometheusPoller._update` (`/repo/faucet/gauge_prom.py` 201-235), `GaugePrometheusClient`
(60-115), `_parse_flow_stats` (`/repo/faucet/gauge_pollers.py` 252-280) as far as its result goes, and of the choice of file
names by `GaugeFlowTableLogger` (`/repo/faucet/watcher.py` 152-177).

Names of labels and values of labels are numbers; the blank value is 0.  Tables are known by name (as in the names of the
variables).
-/

namespace Faucet.Gauge

/-! ## Flow counts -/

/-- A flow of a reply, as `_parse_flow_stats` makes it (gauge_pollers.py 252-280): its table's number, the tags (a dict, in which
the switch, the table, priority, cookie and each matched field appear) and the counts. -/
structure Flow where
  table : Nat
  tags : Dict Nat Nat
  packets : Nat
  bytes : Nat
deriving DecidableEq, Repr

/-- `PROM_FLOW_VARS`, gauge_prom.py 49. -/
inductive Var where
  | packets | bytes
deriving DecidableEq, Repr

/-- What is exported: for each table the names of labels (`table_tags`), and for each variable of each table the samples, by
the values of the labels in the order of the names (the order of a set, which stays the same while nothing is added). -/
structure Reg where
  names : Nat → List Nat
  vals : Nat → Var → Dict (List Nat) Nat

/-- No table has been seen. -/
def Reg.empty : Reg where
  names := fun _ => []
  vals := fun _ _ => []

/-- Keys of the tags that are not names of labels, gauge_prom.py 216. -/
def unreg (names : List Nat) (tags : Dict Nat Nat) : List Nat := tags.keys.filter (fun k => !names.contains k)

/-- Values of the labels; blank for names that are not among the tags, gauge_prom.py 224-227. -/
def labelVals (names : List Nat) (tags : Dict Nat Nat) : List Nat := names.map (fun k => (tags.get? k).getD 0)

/-- `table_tags.update`, `reregister_flow_vars`, gauge_prom.py 106-115, 217-219: both variables of the table start anew. -/
def Reg.addNames (r : Reg) (tbl : Nat) (ks : List Nat) : Reg where
  names := fun t => if t = tbl then r.names t ++ ks else r.names t
  vals := fun t v => if t = tbl then [] else r.vals t v

/-- `metrics[table_prom_var].labels(**tags).set(count)`, gauge_prom.py 230. -/
def Reg.put (r : Reg) (tbl : Nat) (v : Var) (ls : List Nat) (n : Nat) : Reg where
  names := r.names
  vals := fun t v' => if t = tbl ∧ v' = v then (r.vals t v').set ls n else r.vals t v'

/-- One variable of one flow, gauge_prom.py 210-235. -/
def Reg.one (r : Reg) (tbl : Nat) (tags : Dict Nat Nat) (v : Var) (n : Nat) : Reg :=
  let r' := if unreg (r.names tbl) tags = [] then r else r.addNames tbl (unreg (r.names tbl) tags)
  r'.put tbl v (labelVals (r'.names tbl) tags) n

/-- One flow.  `name` gives the name of a table by its number: for a number that is of none of the pipeline's tables,
`table_by_id` returns `None`, and the exception ends Gauge (gauge_prom.py 212, gauge.py 120). -/
def Reg.flow (name : Nat → Option Nat) (r : Reg) (f : Flow) : Option Reg :=
  match name f.table with
  | some tbl => some ((r.one tbl f.tags .packets f.packets).one tbl f.tags .bytes f.bytes)
  | none => none

/-- A reply. -/
def Reg.reply (name : Nat → Option Nat) : Reg → List Flow → Option Reg
  | r, [] => some r
  | r, f :: fs =>
    match r.flow name f with
    | some r' => r'.reply name fs
    | none => none

/-- A history of replies. -/
def Reg.replies (name : Nat → Option Nat) : Reg → List (List Flow) → Option Reg
  | r, [] => some r
  | r, m :: ms =>
    match r.reply name m with
    | some r' => r'.replies name ms
    | none => none

/-- A reload of the configuration, gauge_prom.py 79-104: only variables that are not of flows start anew. -/
def Reg.reload (r : Reg) : Reg := r

/-! ### Specification -/

/-- The sample of a variable whose labels are the tags of a flow (a label the flow has no tag for is blank). -/
def Reg.sample (r : Reg) (tbl : Nat) (v : Var) (tags : Dict Nat Nat) : Option Nat :=
  (r.vals tbl v).get? (labelVals (r.names tbl) tags)

/-- The count of a flow. -/
def Flow.count (f : Flow) : Var → Nat
  | .packets => f.packets
  | .bytes => f.bytes

/-- Two flows have different tags: some key has different values, or only one of them has it.  No value is blank. -/
def TagsDiffer (a b : Dict Nat Nat) : Prop := ∃ k, a.get? k ≠ b.get? k

def NoBlank (a : Dict Nat Nat) : Prop := ∀ k, a.get? k ≠ some 0

/-! ### Proofs -/

theorem labelVals_inj {names : List Nat} {a b : Dict Nat Nat} (ha : ∀ k ∈ a.keys, k ∈ names) (hb : ∀ k ∈ b.keys, k ∈ names)
    (na : NoBlank a) (nb : NoBlank b) (h : labelVals names a = labelVals names b) : ∀ k, a.get? k = b.get? k := by
  intro k
  by_cases hk : k ∈ names
  · have := List.map_inj_left.1 h k hk
    have h1 := na k
    have h2 := nb k
    cases ha' : a.get? k with
    | none =>
      cases hb' : b.get? k with
      | none => rfl
      | some y => simp [ha', hb'] at this h2; exact absurd this.symm h2
    | some x =>
      cases hb' : b.get? k with
      | none => simp [ha', hb'] at this h1; exact absurd this h1
      | some y => simp [ha', hb'] at this; rw [this]
  · rw [Dict.get?_eq_none_iff.2 (fun h => hk (ha k h)), Dict.get?_eq_none_iff.2 (fun h => hk (hb k h))]

theorem unreg_nil {names : List Nat} {tags : Dict Nat Nat} : unreg names tags = [] ↔ ∀ k ∈ tags.keys, k ∈ names := by
  simp [unreg, List.filter_eq_nil_iff]

/-- The tags of the flow are names of labels of its table. -/
def Named (r : Reg) (tbl : Nat) (tags : Dict Nat Nat) : Prop := ∀ k ∈ tags.keys, k ∈ r.names tbl

theorem one_named {r : Reg} {tbl : Nat} {tags : Dict Nat Nat} (h : Named r tbl tags) (v : Var) (n : Nat) :
    r.one tbl tags v n = r.put tbl v (labelVals (r.names tbl) tags) n := by
  simp only [Reg.one]
  rw [if_pos (unreg_nil.2 h)]

theorem one_names (r : Reg) (tbl : Nat) (tags : Dict Nat Nat) (v : Var) (n : Nat) (t : Nat) :
    ∀ k, k ∈ (r.one tbl tags v n).names t ↔ k ∈ r.names t ∨ (t = tbl ∧ k ∈ tags.keys) := by
  intro k
  simp only [Reg.one, Reg.put]
  split
  · rename_i h
    rw [unreg_nil] at h
    constructor
    · exact .inl
    · rintro (h' | ⟨rfl, h'⟩)
      · exact h'
      · exact h k h'
  · simp only [Reg.addNames]
    split
    · rename_i ht
      subst ht
      simp only [unreg, List.mem_append, List.mem_filter, true_and]
      constructor
      · rintro (h | h)
        · exact .inl h
        · exact .inr h.1
      · rintro (h | h)
        · exact .inl h
        · by_cases hk : k ∈ r.names t
          · exact .inl hk
          · exact .inr ⟨h, by simpa using hk⟩
    · rename_i ht
      simp [ht]

theorem flow_some {name : Nat → Option Nat} {r r' : Reg} {f : Flow} (h : r.flow name f = some r') :
    ∃ tbl, name f.table = some tbl ∧ r' = (r.one tbl f.tags .packets f.packets).one tbl f.tags .bytes f.bytes := by
  unfold Reg.flow at h
  split at h
  · rename_i tbl ht
    exact ⟨tbl, ht, by simpa using h.symm⟩
  · cases h

theorem flow_names {name : Nat → Option Nat} {r r' : Reg} {f : Flow} (h : r.flow name f = some r') (t k : Nat) :
    k ∈ r'.names t ↔ k ∈ r.names t ∨ (name f.table = some t ∧ k ∈ f.tags.keys) := by
  obtain ⟨tbl, ht, rfl⟩ := flow_some h
  clear h
  rw [one_names, one_names, ht]
  constructor
  · rintro ((h | ⟨rfl, h⟩) | ⟨rfl, h⟩)
    · exact .inl h
    · exact .inr ⟨rfl, h⟩
    · exact .inr ⟨rfl, h⟩
  · rintro (h | ⟨e, h⟩)
    · exact .inl (.inl h)
    · cases e; exact .inr ⟨rfl, h⟩

theorem reply_names {name : Nat → Option Nat} {r r' : Reg} {fs : List Flow} (h : r.reply name fs = some r') (t k : Nat) :
    k ∈ r'.names t ↔ k ∈ r.names t ∨ ∃ f ∈ fs, name f.table = some t ∧ k ∈ f.tags.keys := by
  induction fs generalizing r with
  | nil => simp [Reg.reply] at h; simp [h]
  | cons f fs ih =>
    simp only [Reg.reply] at h
    split at h
    · rename_i r1 h1
      rw [ih h, flow_names h1]
      simp only [List.mem_cons, exists_eq_or_imp, or_assoc]
    · cases h

/-- All tags of the flows are names of labels. -/
def AllNamed (name : Nat → Option Nat) (r : Reg) (fs : List Flow) : Prop :=
  ∀ f ∈ fs, ∀ tbl, name f.table = some tbl → Named r tbl f.tags

theorem put_sample_self (r : Reg) (tbl : Nat) (v : Var) (tags : Dict Nat Nat) (n : Nat) :
    (r.put tbl v (labelVals (r.names tbl) tags) n).sample tbl v tags = some n := by
  simp [Reg.put, Reg.sample]

theorem put_sample_ne (r : Reg) (tbl : Nat) (v : Var) (ls : List Nat) (n : Nat) (t : Nat) (v' : Var) (tags : Dict Nat Nat)
    (h : ¬ (t = tbl ∧ v' = v ∧ labelVals (r.names t) tags = ls)) :
    (r.put tbl v ls n).sample t v' tags = r.sample t v' tags := by
  unfold Reg.put Reg.sample
  simp only
  split
  · rename_i ht
    rw [Dict.get?_set_ne]
    intro he
    exact h ⟨ht.1, ht.2, he.symm⟩
  · rfl

/-- Over a reply of named flows, a sample that is of none of them stays. -/
theorem reply_keeps {name : Nat → Option Nat} {fs : List Flow} {r r' : Reg} (h : r.reply name fs = some r')
    (hn : AllNamed name r fs) (t : Nat) (v : Var) (tags : Dict Nat Nat) :
    r'.names = r.names ∧ ((∀ f ∈ fs, name f.table = some t → labelVals (r.names t) tags ≠ labelVals (r.names t) f.tags) →
      r'.sample t v tags = r.sample t v tags) := by
  induction fs generalizing r with
  | nil => simp [Reg.reply] at h; simp [h]
  | cons f fs ih =>
    simp only [Reg.reply] at h
    split at h
    · rename_i r1 h1
      obtain ⟨tbl, ht, he⟩ := flow_some h1
      have hf := hn f (by simp) tbl ht
      rw [one_named hf, one_named (by exact hf)] at he
      have hnm : r1.names = r.names := by rw [he]; rfl
      have := ih h (fun g hg tb htb => by
        have := hn g (by simp [hg]) tb htb
        unfold Named at this ⊢
        rw [hnm]; exact this)
      rw [hnm] at this
      refine ⟨this.1, fun hd => ?_⟩
      rw [this.2 (fun g hg => hd g (by simp [hg])), he]
      rw [put_sample_ne, put_sample_ne]
      · rintro ⟨rfl, -, h⟩; exact hd f (by simp) ht h
      · rintro ⟨rfl, -, h⟩; exact hd f (by simp) ht h
    · cases h

/-- Flows of a reply differ in their tags or their tables. -/
def Distinct (name : Nat → Option Nat) (fs : List Flow) : Prop :=
  fs.Pairwise (fun f g => name f.table = name g.table → TagsDiffer f.tags g.tags)

/-- **C67**: if every tag of the flows of a reply has been seen before in the flow's table, then after the reply every flow is
exported with the counts of the reply, under labels of its own, and what is exported of flows that the reply does not have
is as before. -/
theorem counts_exported_partial (name : Nat → Option Nat) (r r' : Reg) (fs : List Flow) (h : r.reply name fs = some r')
    (hn : AllNamed name r fs) (hb : ∀ f ∈ fs, NoBlank f.tags) (hd : Distinct name fs) :
    (∀ f ∈ fs, ∀ tbl, name f.table = some tbl → ∀ v, r'.sample tbl v f.tags = some (f.count v)) ∧
    (∀ tbl tags v, Named r tbl tags → NoBlank tags →
      (∀ f ∈ fs, name f.table = some tbl → TagsDiffer tags f.tags) → r'.sample tbl v tags = r.sample tbl v tags) := by
  have hlv : ∀ tbl tags, Named r tbl tags → NoBlank tags → ∀ f ∈ fs, name f.table = some tbl → TagsDiffer tags f.tags →
      labelVals (r.names tbl) tags ≠ labelVals (r.names tbl) f.tags := by
    intro tbl tags hnt hbt f hf ht ⟨k, hk⟩ he
    exact hk (labelVals_inj hnt (hn f hf tbl ht) hbt (hb f hf) he k)
  refine ⟨?_, ?_⟩
  · induction fs generalizing r with
    | nil => exact nofun
    | cons f fs ih =>
      simp only [Reg.reply] at h
      split at h
      · rename_i r1 h1
        obtain ⟨tb, ht, he⟩ := flow_some h1
        have hf := hn f (by simp) tb ht
        rw [one_named hf, one_named (by exact hf)] at he
        have hnm : r1.names = r.names := by rw [he]; rfl
        have hn1 : AllNamed name r1 fs := fun g hg tb htb => by
          have := hn g (by simp [hg]) tb htb
          unfold Named at this ⊢
          rw [hnm]; exact this
        rw [Distinct, List.pairwise_cons] at hd
        intro g hg tbl htbl v
        rcases List.mem_cons.1 hg with rfl | hg
        · have e : tb = tbl := by rw [ht] at htbl; simpa using htbl
          subst e
          rw [(reply_keeps h hn1 tb v g.tags).2, he]
          · cases v
            · rw [put_sample_ne _ _ _ _ _ _ _ _ (by simp)]
              exact put_sample_self _ _ _ _ _
            · exact put_sample_self (r.put tb .packets _ _) _ _ _ _
          · intro f' hf' ht'
            rw [hnm]
            exact hlv tb g.tags hf (hb g (by simp)) f' (by simp [hf']) ht' (hd.1 f' hf' (by rw [ht, ht']))
        · exact ih r1 h hn1 (fun x hx => hb x (by simp [hx])) hd.2
            (fun tbl tags h1 h2 f hf h3 h4 => by
              rw [hnm]
              exact hlv tbl tags (by unfold Named at h1 ⊢; rw [← hnm]; exact h1) h2 f (by simp [hf]) h3 h4) g hg tbl htbl v
      · cases h
  · intro tbl tags v hnt hbt hdf
    exact (reply_keeps h hn tbl v tags).2 (fun f hf ht => hlv tbl tags hnt hbt f hf ht (hdf f hf ht))

theorem reply_known {name : Nat → Option Nat} {r : Reg} {fs : List Flow} :
    (∃ r', r.reply name fs = some r') ↔ ∀ f ∈ fs, (name f.table).isSome = true := by
  induction fs generalizing r with
  | nil => simp [Reg.reply]
  | cons f fs ih =>
    simp only [Reg.reply]
    cases hf : name f.table with
    | none =>
      have : r.flow name f = none := by simp [Reg.flow, hf]
      rw [this]; simp [hf]
    | some tbl =>
      have : ∃ r1, r.flow name f = some r1 := by
        simp only [Reg.flow, hf]; exact ⟨_, rfl⟩
      obtain ⟨r1, h1⟩ := this
      rw [h1]; simp only [ih, List.mem_cons, forall_eq_or_imp, hf, Option.isSome_some, true_and]

/-- **C67**: whatever was exported before, after the second of two replies with the same flows (in any order, with any counts)
every flow is exported with the counts of the second. -/
theorem second_reply_exported (name : Nat → Option Nat) (r : Reg) (fs gs : List Flow)
    (hk : ∀ f ∈ fs, (name f.table).isSome = true)
    (hsame : ∀ g ∈ gs, ∃ f ∈ fs, f.table = g.table ∧ f.tags.keys = g.tags.keys)
    (hb : ∀ g ∈ gs, NoBlank g.tags) (hd : Distinct name gs) :
    ∃ r1 r2, r.reply name fs = some r1 ∧ r1.reply name gs = some r2 ∧
      ∀ g ∈ gs, ∀ tbl, name g.table = some tbl → ∀ v, r2.sample tbl v g.tags = some (g.count v) := by
  obtain ⟨r1, h1⟩ := reply_known (r := r).2 hk
  have hk2 : ∀ g ∈ gs, (name g.table).isSome = true := by
    intro g hg
    obtain ⟨f, hf, ht, _⟩ := hsame g hg
    rw [← ht]; exact hk f hf
  obtain ⟨r2, h2⟩ := reply_known (r := r1).2 hk2
  refine ⟨r1, r2, h1, h2, (counts_exported_partial name r1 r2 gs h2 ?_ hb hd).1⟩
  intro g hg tbl ht k hkk
  obtain ⟨f, hf, htb, hkeys⟩ := hsame g hg
  rw [reply_names h1]
  exact .inr ⟨f, hf, by rw [htb]; exact ht, by rw [hkeys]; exact hkk⟩

theorem one_other (r : Reg) (tbl : Nat) (tags : Dict Nat Nat) (v : Var) (n : Nat) (t : Nat) (h : t ≠ tbl) :
    (r.one tbl tags v n).names t = r.names t ∧ (r.one tbl tags v n).vals t = r.vals t := by
  simp only [Reg.one, Reg.put, h, false_and, if_false]
  split
  · exact ⟨rfl, rfl⟩
  · simp [Reg.addNames, h]

/-- **C67**: a reply has no effect on what is exported of tables that it has no flows of. -/
theorem other_tables_kept (name : Nat → Option Nat) (fs : List Flow) (r r' : Reg) (h : r.reply name fs = some r') (t : Nat)
    (ht : ∀ f ∈ fs, name f.table ≠ some t) (v : Var) (tags : Dict Nat Nat) : r'.sample t v tags = r.sample t v tags := by
  have key : r'.names t = r.names t ∧ r'.vals t = r.vals t := by
    induction fs generalizing r with
    | nil => simp [Reg.reply] at h; simp [h]
    | cons f fs ih =>
      simp only [Reg.reply] at h
      split at h
      · rename_i r1 h1
        obtain ⟨tb, hb, rfl⟩ := flow_some h1
        have hne : t ≠ tb := fun e => ht f (by simp) (by rw [hb, e])
        have := ih _ h (fun g hg => ht g (by simp [hg]))
        rw [this.1, this.2, (one_other _ _ _ _ _ t hne).1, (one_other _ _ _ _ _ t hne).2,
          (one_other _ _ _ _ _ t hne).1, (one_other _ _ _ _ _ t hne).2]
        exact ⟨rfl, rfl⟩
      · cases h
  unfold Reg.sample
  rw [key.1, key.2]

/-- Everything exported of a table was reported of a flow of the table, in one of the replies. -/
def Sourced (name : Nat → Option Nat) (seen : List Flow) (r : Reg) : Prop :=
  ∀ tbl v ls n, (r.vals tbl v).get? ls = some n →
    ∃ f ∈ seen, name f.table = some tbl ∧ f.count v = n ∧ ls = labelVals (r.names tbl) f.tags ∧ Named r tbl f.tags

theorem sourced_one {name : Nat → Option Nat} {seen : List Flow} {r : Reg} {f : Flow} {tbl : Nat} {v : Var}
    (h : Sourced name seen r) (hf : f ∈ seen) (ht : name f.table = some tbl) :
    Sourced name seen (r.one tbl f.tags v (f.count v)) := by
  intro t w ls n hg
  have hself : Named (r.one tbl f.tags v (f.count v)) tbl f.tags := fun k hk => (one_names _ _ _ _ _ _ k).2 (.inr ⟨rfl, hk⟩)
  by_cases hn : unreg (r.names tbl) f.tags = []
  · have hnm : (r.one tbl f.tags v (f.count v)).names = r.names := by
      simp only [Reg.one]; rw [if_pos hn]; rfl
    rw [one_named (unreg_nil.1 hn)] at hg
    simp only [Reg.put] at hg
    split at hg
    · rename_i hc
      obtain ⟨rfl, rfl⟩ := hc
      rw [Dict.get?_set] at hg
      split at hg
      · rename_i he
        refine ⟨f, hf, ht, by simpa using hg, ?_, hself⟩
        rw [hnm, ← he]
      · obtain ⟨g, a, b, c, d, e⟩ := h t w ls n hg
        exact ⟨g, a, b, c, by rw [hnm]; exact d, by unfold Named; rw [hnm]; exact e⟩
    · obtain ⟨g, a, b, c, d, e⟩ := h t w ls n hg
      exact ⟨g, a, b, c, by rw [hnm]; exact d, by unfold Named; rw [hnm]; exact e⟩
  · have hone : r.one tbl f.tags v (f.count v) = (r.addNames tbl (unreg (r.names tbl) f.tags)).put tbl v
        (labelVals ((r.addNames tbl (unreg (r.names tbl) f.tags)).names tbl) f.tags) (f.count v) := by
      simp only [Reg.one]; rw [if_neg hn]
    by_cases htt : t = tbl
    · subst htt
      have hv : (r.one t f.tags v (f.count v)).vals t w = if w = v then
          Dict.set [] (labelVals ((r.one t f.tags v (f.count v)).names t) f.tags) (f.count v) else [] := by
        rw [hone]; simp [Reg.put, Reg.addNames]
      rw [hv] at hg
      split at hg
      · rename_i hw
        subst hw
        rw [Dict.get?_set] at hg
        split at hg
        · rename_i he
          exact ⟨f, hf, ht, by simpa using hg, he.symm, hself⟩
        · cases hg
      · cases hg
    · have hv : (r.one tbl f.tags v (f.count v)).vals t w = r.vals t w := by
        rw [hone]; simp [Reg.put, Reg.addNames, htt]
      have hnm : (r.one tbl f.tags v (f.count v)).names t = r.names t := by
        rw [hone]; simp [Reg.put, Reg.addNames, htt]
      rw [hv] at hg
      obtain ⟨g, a, b, c, d, e⟩ := h t w ls n hg
      exact ⟨g, a, b, c, by rw [hnm]; exact d, by unfold Named; rw [hnm]; exact e⟩

theorem sourced_mono {name : Nat → Option Nat} {seen seen' : List Flow} {r : Reg} (h : Sourced name seen r)
    (hs : ∀ f ∈ seen, f ∈ seen') : Sourced name seen' r := by
  intro t v ls n hg
  obtain ⟨f, hf, x⟩ := h t v ls n hg
  exact ⟨f, hs f hf, x⟩

theorem sourced_reply {name : Nat → Option Nat} {fs seen : List Flow} {r r' : Reg} (h : Sourced name seen r)
    (hr : r.reply name fs = some r') (hs : ∀ f ∈ fs, f ∈ seen) : Sourced name seen r' := by
  induction fs generalizing r with
  | nil => simp [Reg.reply] at hr; rw [← hr]; exact h
  | cons f fs ih =>
    simp only [Reg.reply] at hr
    split at hr
    · rename_i r1 h1
      obtain ⟨tb, ht, rfl⟩ := flow_some h1
      refine ih ?_ hr (fun g hg => hs g (by simp [hg]))
      exact sourced_one (v := .bytes) (sourced_one (v := .packets) h (hs f (by simp)) ht) (hs f (by simp)) ht
    · cases hr

/-- **C67**: nothing is made up: after any history of replies each exported count is one that a switch reported, of a flow of
that table with those very tags. -/
theorem counts_were_reported (name : Nat → Option Nat) (ms : List (List Flow)) (r : Reg)
    (h : Reg.empty.replies name ms = some r) (tbl : Nat) (v : Var) (tags : Dict Nat Nat) (n : Nat)
    (hs : r.sample tbl v tags = some n) (hn : Named r tbl tags) (hb : NoBlank tags)
    (hbm : ∀ m ∈ ms, ∀ f ∈ m, NoBlank f.tags) :
    ∃ m ∈ ms, ∃ f ∈ m, name f.table = some tbl ∧ f.count v = n ∧ ∀ k, f.tags.get? k = tags.get? k := by
  have key : ∀ (ms : List (List Flow)) (seen : List Flow) (r0 : Reg), Sourced name seen r0 →
      r0.replies name ms = some r → Sourced name (seen ++ ms.flatten) r := by
    intro ms
    induction ms with
    | nil => intro seen r0 h0 hr; simp [Reg.replies] at hr; subst hr; simpa using h0
    | cons m ms ih =>
      intro seen r0 h0 hr
      simp only [Reg.replies] at hr
      split at hr
      · rename_i r1 h1
        have := ih (seen ++ m) r1 (sourced_reply (sourced_mono h0 (fun f hf => by simp [hf])) h1 (fun f hf => by simp [hf])) hr
        simpa using this
      · cases hr
  have h1 := key ms [] Reg.empty (by intro _ _ _ _ h; simp [Reg.empty] at h) h
  obtain ⟨f, hf, ht, hc, hl, hnf⟩ := h1 tbl v _ n hs
  obtain ⟨m, hm, hfm⟩ := List.mem_flatten.1 (by simpa using hf)
  exact ⟨m, hm, f, hfm, ht, hc, labelVals_inj hnf hn (hbm m hm f hfm) hb hl.symm⟩

/-! ## Flow table dumps -/

/-- The name of a dump: switch, time in seconds and increment, watcher.py 153-170. -/
structure DumpName where
  dp : Nat
  time : Nat
  inc : Option Nat
deriving DecidableEq, Repr

/-- The loop of watcher.py 163-170; `fuel` bounds its turns (it ends, as there are finitely many files: `dump_fresh`). -/
def nextInc (files : List DumpName) (dp time : Nat) : Nat → Nat → DumpName
  | 0, i => ⟨dp, time, some i⟩
  | fuel + 1, i => if files.contains ⟨dp, time, some i⟩ then nextInc files dp time fuel (i + 1) else ⟨dp, time, some i⟩

/-- The name that a dump is written to, watcher.py 156-170. -/
def dumpName (files : List DumpName) (dp time : Nat) : DumpName :=
  if files.contains ⟨dp, time, none⟩ then nextInc files dp time files.length 1 else ⟨dp, time, none⟩

theorem nextInc_spec (files : List DumpName) (dp time fuel i : Nat) :
    nextInc files dp time fuel i ∉ files ∨ ∀ j, i ≤ j → j ≤ i + fuel → ⟨dp, time, some j⟩ ∈ files := by
  induction fuel generalizing i with
  | zero =>
    by_cases h : (⟨dp, time, some i⟩ : DumpName) ∈ files
    · right; intro j h1 h2; rw [show j = i by omega]; exact h
    · left; exact h
  | succ fuel ih =>
    unfold nextInc
    split
    · rename_i h
      rcases ih (i + 1) with h' | h'
      · exact .inl h'
      · right
        intro j h1 h2
        by_cases e : j = i
        · rw [e]; simpa using h
        · exact h' j (by omega) (by omega)
    · rename_i h; left; simpa using h

theorem nextInc_dp (files : List DumpName) (dp time fuel i : Nat) :
    (nextInc files dp time fuel i).dp = dp ∧ (nextInc files dp time fuel i).time = time := by
  induction fuel generalizing i with
  | zero => exact ⟨rfl, rfl⟩
  | succ fuel ih => unfold nextInc; split; exacts [ih _, ⟨rfl, rfl⟩]

/-- **C67**: a dump of a flow table never overwrites a file, whatever files there are, and bears the name of the switch and
the time. -/
theorem dump_fresh (files : List DumpName) (dp time : Nat) :
    dumpName files dp time ∉ files ∧ (dumpName files dp time).dp = dp ∧ (dumpName files dp time).time = time := by
  unfold dumpName
  split
  · rename_i h0
    refine ⟨?_, nextInc_dp _ _ _ _ _⟩
    rcases nextInc_spec files dp time files.length 1 with h | h
    · exact h
    · exfalso
      let l : List DumpName := (List.range' 1 (files.length + 1)).map (fun j => ⟨dp, time, some j⟩)
      have hn : l.Nodup := by
        refine List.Nodup.map ?_ List.nodup_range'
        intro a b hab
        simpa using hab
      have hs : l ⊆ files := by
        intro x hx
        obtain ⟨j, hj, rfl⟩ := List.mem_map.1 hx
        have := List.mem_range'_1.1 hj
        exact h j (by omega) (by omega)
      have := (hn.subperm hs).length_le
      simp [l] at this
      omega
  · rename_i h
    exact ⟨by simpa using h, rfl, rfl⟩

/-- **C67**: so all parts of all replies are kept: after any history of dumps there is a file for each, besides those that
were there. -/
theorem dumps_all_kept (files : List DumpName) (ds : List (Nat × Nat)) :
    (ds.foldl (fun fs d => dumpName fs d.1 d.2 :: fs) files).length = files.length + ds.length ∧
      (files.Nodup → (ds.foldl (fun fs d => dumpName fs d.1 d.2 :: fs) files).Nodup) := by
  induction ds generalizing files with
  | nil => simp
  | cons d ds ih =>
    simp only [List.foldl_cons, List.length_cons]
    have := ih (dumpName files d.1 d.2 :: files)
    refine ⟨by rw [this.1]; simp; omega, fun hn => this.2 ?_⟩
    exact List.nodup_cons.2 ⟨(dump_fresh files d.1 d.2).1, hn⟩

end Faucet.Gauge
