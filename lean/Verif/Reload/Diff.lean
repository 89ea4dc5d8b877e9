import Mathlib.Data.List.Nodup

/-!
# Comparing two configurations

Models `Conf._conf_keys`, `_str_conf`, `conf_hash` and `ignore_subconf` (/repo/faucet/conf.py
146-165, 183-205, 219-230, 262-266) and `DP._get_conf_changes` (/repo/faucet/dp.py 1400-1461).
-/

namespace Faucet.Reload

/-! ## Values of settings -/

mutual
/-- A value in `orig_conf`, as finalized (conf.py 239-260): lists have become tuples, sets frozen
sets in their iteration order, and dictionaries are sorted.  Texts are coded as numbers; keys of
dictionaries are identified by their text, as `_str_conf` does. -/
inductive Val where
  | none
  | bool (b : Bool)
  | int (i : Int)
  | str (s : Nat)
  /-- an IP address or network, by its text -/
  | addr (s : Nat)
  | float (f : Rat)
  | list (xs : Vals)
  | fset (xs : Vals)
  | dict (kvs : Pairs)
  /-- another configuration object, by its name -/
  | conf (name : Nat)
inductive Vals where
  | nil
  | cons (v : Val) (r : Vals)
inductive Pairs where
  | nil
  | cons (k : Nat) (v : Val) (r : Pairs)
end

mutual
/-- What `_str_conf` returns: what gets compared. -/
inductive SVal where
  | none
  | bool (b : Bool)
  | int (i : Int)
  | str (s : Nat)
  | tuple (xs : SVals)
  | dict (kvs : SPairs)
inductive SVals where
  | nil
  | cons (v : SVal) (r : SVals)
inductive SPairs where
  | nil
  | cons (k : Nat) (v : SVal) (r : SPairs)
end

/-- `v is None`. -/
def Val.isNone : Val → Bool
  | .none => true
  | _ => false

mutual
/-- `_str_conf`, conf.py 183-205: the last line returns `None` for anything it does not know, and
it does not know floating point numbers. -/
def strConf : Val → SVal
  | .none => .none
  | .bool b => .bool b
  | .int i => .int i
  | .str s => .str s
  | .addr s => .str s
  | .float _ => .none
  | .list xs => .tuple (strVals xs)
  | .fset xs => .tuple (strVals xs)
  | .dict kvs => .dict (strPairs kvs)
  | .conf n => .str n
/-- The items of a list, those that are `None` left out. -/
def strVals : Vals → SVals
  | .nil => .nil
  | .cons v r => if v.isNone then strVals r else .cons (strConf v) (strVals r)
/-- The items of a dictionary, those that are `None` left out. -/
def strPairs : Pairs → SPairs
  | .nil => .nil
  | .cons k v r => if v.isNone then strPairs r else .cons k (strConf v) (strPairs r)
end

/-- One section of a configuration: its keys, in order, and their values. -/
abbrev Section := List (Nat × Val)

/-- Is this value one of the other configuration objects, or a list of them, conf.py 159-163? -/
def isSub : Val → Bool
  | .conf _ => true
  | .list (.cons (.conf _) _) => true
  | _ => false

/-- `_conf_keys(conf, subconf=False, ignore_keys)`, conf.py 146-165.  A section always has the same
keys, those of the class's `defaults`. -/
def confKeys (ignore : Nat → Bool) (s : Section) : List (Nat × SVal) :=
  (s.filter (fun kv => !(ignore kv.1) && !(isSub kv.2))).map (fun kv => (kv.1, strConf kv.2))

/-- `ignore_subconf(other, ignore_keys)`, conf.py 262-266.  It compares hashes of the texts of the
keys and values; here the keys and values themselves: that the hashes of different ones differ is
taken for granted. -/
def SameConf (ignore : Nat → Bool) (a b : Section) : Prop := confKeys ignore a = confKeys ignore b

/-! ## What is different -/

/-- The key whose change alone does not count, dp.py 1424-1426. -/
def descriptionKey : Nat := 0

variable {α : Type}

/-- Python's `dict.get(k)`. -/
def get (d : List (Nat × α)) (k : Nat) : Option α := (d.find? (fun kv => kv.1 == k)).map (·.2)

/-- `deleted_confs`, dp.py 1410. -/
def deleted (old new : List (Nat × α)) : List Nat :=
  (old.map (·.1)).filter (fun k => (get new k).isNone)

/-- `added_confs`, dp.py 1440-1442. -/
def added (old new : List (Nat × α)) : List Nat :=
  (new.map (·.1)).filter (fun k => (get old k).isNone)

/-- Is `k` in the old configuration, with a section that compares so with the new one? -/
def was (old : List (Nat × α)) (k : Nat) (f : α → Bool) : Bool :=
  match get old k with
  | some o => f o
  | none => false

/-- `changed_confs`, dp.py 1430-1439; `same` is the comparison, leaving aside descriptions. -/
def changed (same : α → α → Bool) (old new : List (Nat × α)) : List Nat :=
  (new.filter (fun kv => was old kv.1 (fun o => !(same o kv.2)))).map (·.1)

/-- `same_confs`, dp.py 1421-1429: equal, or only the description is different. -/
def sames (same : α → α → Bool) (old new : List (Nat × α)) : List Nat :=
  (new.filter (fun kv => was old kv.1 (fun o => same o kv.2))).map (·.1)

/-! ## Lemmas -/

theorem get_some {d : List (Nat × α)} (hd : (d.map (·.1)).Nodup) {k : Nat} {v : α} :
    get d k = some v ↔ (k, v) ∈ d := by
  unfold get
  induction d with
  | nil => simp
  | cons x r ih =>
    obtain ⟨k', v'⟩ := x
    simp only [List.map_cons, List.nodup_cons] at hd
    by_cases h : k' = k
    · subst h
      simp only [List.find?_cons, beq_self_eq_true, Option.map_some, Option.some.injEq,
        List.mem_cons, Prod.mk.injEq, true_and]
      constructor
      · intro h; exact .inl h.symm
      · rintro (h | h)
        · exact h.symm
        · exact absurd (List.mem_map.2 ⟨_, h, rfl⟩) hd.1
    · have hb : (k' == k) = false := by simpa using h
      simp only [List.find?_cons, hb, List.mem_cons, Prod.mk.injEq]
      rw [ih hd.2]
      constructor
      · intro h'; exact .inr h'
      · rintro (h' | h')
        · exact absurd h'.1.symm h
        · exact h'

theorem get_isNone {d : List (Nat × α)} {k : Nat} : (get d k).isNone = true ↔ k ∉ d.map (·.1) := by
  unfold get
  rw [Option.isNone_map, Option.isNone_iff_eq_none, List.find?_eq_none]
  simp only [beq_iff_eq, List.mem_map, not_exists, not_and]

theorem get_none {d : List (Nat × α)} {k : Nat} : get d k = none ↔ k ∉ d.map (·.1) := by
  rw [← get_isNone, Option.isNone_iff_eq_none]

theorem get_mem {d : List (Nat × α)} {k : Nat} {v : α} (h : get d k = some v) : (k, v) ∈ d := by
  unfold get at h
  rw [Option.map_eq_some_iff] at h
  obtain ⟨⟨k', v'⟩, h1, h2⟩ := h
  have := List.mem_of_find?_eq_some h1
  have hk := List.find?_some h1
  simp only [beq_iff_eq] at hk
  subst hk; subst h2; exact this

theorem mem_deleted {old new : List (Nat × α)} {k : Nat} :
    k ∈ deleted old new ↔ k ∈ old.map (·.1) ∧ k ∉ new.map (·.1) := by
  unfold deleted; rw [List.mem_filter, get_isNone]

theorem mem_added {old new : List (Nat × α)} {k : Nat} :
    k ∈ added old new ↔ k ∈ new.map (·.1) ∧ k ∉ old.map (·.1) := by
  unfold added; rw [List.mem_filter, get_isNone]

theorem mem_changed {same : α → α → Bool} {old new : List (Nat × α)}
    (hn : (new.map (·.1)).Nodup) {k : Nat} :
    k ∈ changed same old new ↔
      ∃ o n, get old k = some o ∧ get new k = some n ∧ same o n = false := by
  unfold changed was
  simp only [List.mem_map, List.mem_filter, Prod.exists, exists_and_right, exists_eq_right]
  constructor
  · rintro ⟨n, hm, h⟩
    cases ho : get old k with
    | none => rw [ho] at h; simp at h
    | some o =>
      rw [ho] at h
      exact ⟨o, n, rfl, (get_some hn).2 hm, by simpa using h⟩
  · rintro ⟨o, n, h1, h2, h3⟩
    exact ⟨n, get_mem h2, by rw [h1]; simpa using h3⟩

theorem mem_sames {same : α → α → Bool} {old new : List (Nat × α)}
    (hn : (new.map (·.1)).Nodup) {k : Nat} :
    k ∈ sames same old new ↔
      ∃ o n, get old k = some o ∧ get new k = some n ∧ same o n = true := by
  unfold sames was
  simp only [List.mem_map, List.mem_filter, Prod.exists, exists_and_right, exists_eq_right]
  constructor
  · rintro ⟨n, hm, h⟩
    cases ho : get old k with
    | none => rw [ho] at h; simp at h
    | some o =>
      rw [ho] at h
      exact ⟨o, n, rfl, (get_some hn).2 hm, h⟩
  · rintro ⟨o, n, h1, h2, h3⟩
    exact ⟨n, get_mem h2, by rw [h1]; exact h3⟩

/-! ## Which differences are noticed -/

mutual
/-- A value as YAML gives it, or an address, but not a floating point number, and with nothing empty
in it.  `addr` tells the texts of addresses from others. -/
def Plain (addr : Nat → Bool) : Val → Prop
  | .bool _ | .int _ => True
  | .str s => addr s = false
  | .addr s => addr s = true
  | .list xs => PlainVals addr xs
  | .dict kvs => PlainPairs addr kvs
  | _ => False
def PlainVals (addr : Nat → Bool) : Vals → Prop
  | .nil => True
  | .cons v r => Plain addr v ∧ PlainVals addr r
def PlainPairs (addr : Nat → Bool) : Pairs → Prop
  | .nil => True
  | .cons _ v r => Plain addr v ∧ PlainPairs addr r
end

theorem Plain.not_none {A : Nat → Bool} {v : Val} (h : Plain A v) : v.isNone = false := by
  cases v <;> simp_all [Plain, Val.isNone]

mutual
theorem strConf_inj (A : Nat → Bool) : ∀ v w : Val, Plain A v → Plain A w → strConf v = strConf w → v = w
  | .bool a, w, _, hw, h => by cases w <;> simp_all [strConf, Plain]
  | .int a, w, _, hw, h => by cases w <;> simp_all [strConf, Plain]
  | .str a, w, _, hw, h => by cases w <;> simp_all [strConf, Plain]
  | .addr a, w, _, hw, h => by cases w <;> simp_all [strConf, Plain]
  | .list xs, w, hv, hw, h => by
    cases w with
    | list ys =>
      simp only [strConf, SVal.tuple.injEq] at h
      rw [strVals_inj A xs ys (by simpa [Plain] using hv) (by simpa [Plain] using hw) h]
    | _ => simp_all [strConf, Plain]
  | .dict xs, w, hv, hw, h => by
    cases w with
    | dict ys =>
      simp only [strConf, SVal.dict.injEq] at h
      rw [strPairs_inj A xs ys (by simpa [Plain] using hv) (by simpa [Plain] using hw) h]
    | _ => simp_all [strConf, Plain]
  | .none, _, hv, _, _ => by simp [Plain] at hv
  | .float _, _, hv, _, _ => by simp [Plain] at hv
  | .fset _, _, hv, _, _ => by simp [Plain] at hv
  | .conf _, _, hv, _, _ => by simp [Plain] at hv
theorem strVals_inj (A : Nat → Bool) : ∀ xs ys : Vals, PlainVals A xs → PlainVals A ys → strVals xs = strVals ys → xs = ys
  | .nil, .nil, _, _, _ => rfl
  | .nil, .cons v r, _, hy, h => by
    simp only [PlainVals] at hy
    simp [strVals, hy.1.not_none] at h
  | .cons v r, .nil, hx, _, h => by
    simp only [PlainVals] at hx
    simp [strVals, hx.1.not_none] at h
  | .cons v r, .cons w s, hx, hy, h => by
    simp only [PlainVals] at hx hy
    simp only [strVals, hx.1.not_none, hy.1.not_none, Bool.false_eq_true, if_false,
      SVals.cons.injEq] at h
    rw [strConf_inj A v w hx.1 hy.1 h.1, strVals_inj A r s hx.2 hy.2 h.2]
theorem strPairs_inj (A : Nat → Bool) : ∀ xs ys : Pairs, PlainPairs A xs → PlainPairs A ys →
    strPairs xs = strPairs ys →
    xs = ys
  | .nil, .nil, _, _, _ => rfl
  | .nil, .cons k v r, _, hy, h => by
    simp only [PlainPairs] at hy
    simp [strPairs, hy.1.not_none] at h
  | .cons k v r, .nil, hx, _, h => by
    simp only [PlainPairs] at hx
    simp [strPairs, hx.1.not_none] at h
  | .cons k v r, .cons l w s, hx, hy, h => by
    simp only [PlainPairs] at hx hy
    simp only [strPairs, hx.1.not_none, hy.1.not_none, Bool.false_eq_true, if_false,
      SPairs.cons.injEq] at h
    rw [h.1, strConf_inj A v w hx.1 hy.1 h.2.1, strPairs_inj A r s hx.2 hy.2 h.2.2]
end

theorem Plain.not_sub {A : Nat → Bool} {v : Val} (h : Plain A v) : isSub v = false := by
  cases v with
  | list xs =>
    cases xs with
    | nil => rfl
    | cons v r =>
      simp only [Plain, PlainVals] at h
      cases v <;> simp_all [isSub, Plain]
  | _ => simp_all [Plain, isSub]

/-- C29, what counts as a change: two sections with the same keys, all of whose values are plain,
compare equal exactly if the values of all keys that are not ignored are equal. -/
theorem change_noticed (ignore : Nat → Bool) (a b : Section) (hk : a.map (·.1) = b.map (·.1))
    (addr : Nat → Bool) (ha : ∀ kv ∈ a, Plain addr kv.2) (hb : ∀ kv ∈ b, Plain addr kv.2) :
    SameConf ignore a b ↔ ∀ i (h : i < a.length) (h' : i < b.length),
      ignore (a[i]).1 = false → (a[i]).2 = (b[i]).2 := by
  unfold SameConf
  induction a generalizing b with
  | nil =>
    cases b with
    | nil => simp
    | cons y s => simp at hk
  | cons x r ih =>
    cases b with
    | nil => simp at hk
    | cons y s =>
      obtain ⟨k, v⟩ := x
      obtain ⟨l, w⟩ := y
      simp only [List.map_cons, List.cons.injEq] at hk
      obtain ⟨hk1, hk2⟩ := hk
      subst hk1
      have pv : Plain addr v := ha _ (.head _)
      have pw : Plain addr w := hb _ (.head _)
      have ih' := ih s hk2 (fun kv h => ha kv (.tail _ h)) (fun kv h => hb kv (.tail _ h))
      have rest : (∀ i (h : i < ((k, v) :: r).length) (h' : i < ((k, w) :: s).length),
          ignore (((k, v) :: r)[i]).1 = false → (((k, v) :: r)[i]).2 = (((k, w) :: s)[i]).2) ↔
          (ignore k = false → v = w) ∧ ∀ i (h : i < r.length) (h' : i < s.length),
            ignore (r[i]).1 = false → (r[i]).2 = (s[i]).2 := by
        constructor
        · intro h
          refine ⟨fun hi => h 0 (by simp) (by simp) hi, fun i h1 h2 hi => ?_⟩
          exact h (i + 1) (by simpa using h1) (by simpa using h2) hi
        · rintro ⟨h0, h1⟩ i hi hi' hg
          cases i with
          | zero => exact h0 hg
          | succ i => exact h1 i (by simpa using hi) (by simpa using hi') hg
      rw [rest, ← ih']
      unfold confKeys
      cases hi : ignore k with
      | true => simp [hi]
      | false =>
        simp only [List.filter_cons, hi, pv.not_sub, pw.not_sub, Bool.not_false, Bool.and_self,
          if_true, List.map_cons, List.cons.injEq, Prod.mk.injEq, true_and]
        constructor
        · rintro ⟨h1, h2⟩; exact ⟨fun _ => strConf_inj addr _ _ pv pw h1, h2⟩
        · rintro ⟨h1, h2⟩; exact ⟨congrArg _ (h1 trivial), h2⟩

/-- The two comparisons of dp.py 1421-1429, with and without the description, come to the second. -/
theorem same_or_description (ignore : Nat → Bool) (a b : Section) :
    (SameConf ignore a b ∨ SameConf (fun k => ignore k || k == descriptionKey) a b) ↔
      SameConf (fun k => ignore k || k == descriptionKey) a b := by
  refine ⟨fun h => h.elim (fun h => ?_) id, .inr⟩
  have key : ∀ s : Section, confKeys (fun k => ignore k || k == descriptionKey) s =
      (confKeys ignore s).filter (fun kv => !(kv.1 == descriptionKey)) := by
    intro s
    unfold confKeys
    rw [List.filter_map, List.filter_filter]
    congr 1
    apply List.filter_congr
    rintro ⟨k, v⟩ _
    simp only [Function.comp]
    cases ignore k <;> cases k == descriptionKey <;> cases isSub v <;> rfl
  unfold SameConf
  rw [key a, key b, show confKeys ignore a = confKeys ignore b from h]

/-- C29: a section never differs from itself, whatever its values are. -/
theorem same_as_itself (ignore : Nat → Bool) (a : Section) : SameConf ignore a a := rfl

/-- C29: of any two configurations, an object that only the old one has is deleted, one that only
the new one has is added, and one that both have is changed or the same as the comparison says;
no object is in two of these lists. -/
theorem changes_exact (same : α → α → Bool) (old new : List (Nat × α))
    (hn : (new.map (·.1)).Nodup) (k : Nat) :
    (k ∈ deleted old new ↔ k ∈ old.map (·.1) ∧ k ∉ new.map (·.1)) ∧
    (k ∈ added old new ↔ k ∈ new.map (·.1) ∧ k ∉ old.map (·.1)) ∧
    (k ∈ changed same old new ↔
      ∃ o n, get old k = some o ∧ get new k = some n ∧ same o n = false) ∧
    (k ∈ sames same old new ↔
      ∃ o n, get old k = some o ∧ get new k = some n ∧ same o n = true) :=
  ⟨mem_deleted, mem_added, mem_changed hn, mem_sames hn⟩

/-- C29: comparing a configuration with itself finds nothing deleted, added or changed. -/
theorem self_no_changes (same : α → α → Bool) (hs : ∀ x, same x x = true) (c : List (Nat × α))
    (hc : (c.map (·.1)).Nodup) :
    deleted c c = [] ∧ added c c = [] ∧ changed same c c = [] := by
  refine ⟨?_, ?_, ?_⟩
  · rw [List.eq_nil_iff_forall_not_mem]; intro k; rw [mem_deleted]; tauto
  · rw [List.eq_nil_iff_forall_not_mem]; intro k; rw [mem_added]; tauto
  · rw [List.eq_nil_iff_forall_not_mem]; intro k; rw [mem_changed hc]
    rintro ⟨o, n, h1, h2, h3⟩
    rw [h1] at h2; cases h2; rw [hs] at h3; simp at h3

end Faucet.Reload
