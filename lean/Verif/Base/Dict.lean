/-!
# Python dictionaries

A Python `dict` is modelled as an insertion-ordered association list. `set` keeps the position of an
existing key (as Python does) and appends a new key at the end; `del` removes the key.
These are generic containers: they model the language, not a file of `/repo`.
-/

namespace Faucet

/-- Python `dict`: insertion-ordered association list. -/
abbrev Dict (κ : Type) (α : Type) := List (κ × α)

namespace Dict

variable {κ α : Type} [DecidableEq κ]

/-- `d.get(k, None)` -/
def get? : Dict κ α → κ → Option α
  | [], _ => none
  | (k', v) :: d, k => if k' = k then some v else get? d k

/-- `d[k] = v` -/
def set : Dict κ α → κ → α → Dict κ α
  | [], k, v => [(k, v)]
  | (k', v') :: d, k, v => if k' = k then (k', v) :: d else (k', v') :: set d k v

/-- `del d[k]` (no error if missing; callers check) -/
def del (d : Dict κ α) (k : κ) : Dict κ α := d.filter (fun e => e.1 ≠ k)

/-- `d.keys()` -/
def keys (d : Dict κ α) : List κ := d.map (·.1)

/-- `d.values()` -/
def values (d : Dict κ α) : List α := d.map (·.2)

/-- `k in d` -/
def has (d : Dict κ α) (k : κ) : Bool := (d.get? k).isSome

@[simp] theorem get?_nil (k : κ) : get? ([] : Dict κ α) k = none := rfl

theorem get?_cons (k' : κ) (v : α) (d : Dict κ α) (k : κ) :
    get? ((k', v) :: d) k = if k' = k then some v else get? d k := rfl

theorem get?_set (d : Dict κ α) (k : κ) (v : α) (k2 : κ) :
    get? (set d k v) k2 = if k = k2 then some v else get? d k2 := by
  induction d with
  | nil => simp [set, get?]
  | cons e d ih =>
    obtain ⟨k', v'⟩ := e
    by_cases h : k' = k
    · subst h; simp only [set, get?, if_true]; split <;> rfl
    · by_cases h2 : k' = k2
      · subst h2; simp [set, h, get?, Ne.symm h]
      · simp [set, h, get?, h2, ih]

@[simp] theorem get?_set_self (d : Dict κ α) (k : κ) (v : α) : get? (set d k v) k = some v := by
  simp [get?_set]

theorem get?_set_ne (d : Dict κ α) {k k2 : κ} (v : α) (h : k ≠ k2) :
    get? (set d k v) k2 = get? d k2 := by
  simp [get?_set, h]

theorem get?_del (d : Dict κ α) (k k2 : κ) :
    get? (del d k) k2 = if k = k2 then none else get? d k2 := by
  induction d with
  | nil => simp [del, get?]
  | cons e d ih =>
    obtain ⟨k', v'⟩ := e
    unfold del at ih ⊢
    by_cases h : k' = k
    · subst h
      by_cases h2 : k' = k2
      · subst h2; simpa using ih
      · simp [get?, h2] at ih ⊢; simpa [h2] using ih
    · by_cases h2 : k' = k2
      · subst h2; simp [h, get?, Ne.symm h]
      · simp [h, get?, h2] at ih ⊢; exact ih

@[simp] theorem get?_del_self (d : Dict κ α) (k : κ) : get? (del d k) k = none := by
  simp [get?_del]

theorem mem_of_get? {d : Dict κ α} {k : κ} {v : α} (h : get? d k = some v) : (k, v) ∈ d := by
  induction d with
  | nil => simp at h
  | cons e d ih =>
    obtain ⟨k', v'⟩ := e
    by_cases hk : k' = k
    · subst hk; simp [get?] at h; simp [h]
    · simp [get?, hk] at h; exact List.mem_cons_of_mem _ (ih h)

theorem get?_isSome_iff_mem_keys {d : Dict κ α} {k : κ} : (get? d k).isSome ↔ k ∈ keys d := by
  induction d with
  | nil => simp [keys]
  | cons e d ih =>
    obtain ⟨k', v'⟩ := e
    by_cases hk : k' = k
    · subst hk; simp [get?, keys]
    · simp [get?, hk, keys, Ne.symm hk] at ih ⊢; exact ih

theorem get?_eq_none_iff {d : Dict κ α} {k : κ} : get? d k = none ↔ k ∉ keys d := by
  rw [← get?_isSome_iff_mem_keys]; cases get? d k <;> simp

theorem get?_of_mem {d : Dict κ α} (hn : (keys d).Nodup) {k : κ} {v : α} (h : (k, v) ∈ d) :
    get? d k = some v := by
  induction d with
  | nil => simp at h
  | cons e d ih =>
    obtain ⟨k', v'⟩ := e
    simp only [keys, List.map_cons, List.nodup_cons] at hn
    rcases List.mem_cons.1 h with h | h
    · cases h; simp [get?]
    · have hne : k' ≠ k := by
        intro hk; subst hk; exact hn.1 (List.mem_map.2 ⟨_, h, rfl⟩)
      simp [get?, hne]; exact ih hn.2 h

theorem get?_eq_some_iff {d : Dict κ α} (hn : (keys d).Nodup) {k : κ} {v : α} :
    get? d k = some v ↔ (k, v) ∈ d := ⟨mem_of_get?, get?_of_mem hn⟩

theorem keys_set (d : Dict κ α) (k : κ) (v : α) :
    keys (set d k v) = if k ∈ keys d then keys d else keys d ++ [k] := by
  induction d with
  | nil => simp [set, keys]
  | cons e d ih =>
    obtain ⟨k', v'⟩ := e
    by_cases h : k' = k
    · subst h; simp [set, keys]
    · simp only [set, h, if_false, keys, List.map_cons, List.mem_cons, Ne.symm h, false_or] at ih ⊢
      unfold keys at ih; rw [ih]
      by_cases hm : k ∈ d.map (·.1) <;> simp [hm]

theorem mem_keys_set {d : Dict κ α} {k k2 : κ} {v : α} :
    k2 ∈ keys (set d k v) ↔ k2 = k ∨ k2 ∈ keys d := by
  rw [keys_set]; split <;> simp_all <;> grind

theorem nodup_keys_set {d : Dict κ α} (hn : (keys d).Nodup) (k : κ) (v : α) :
    (keys (set d k v)).Nodup := by
  rw [keys_set]; split
  · exact hn
  · rename_i h; rw [List.nodup_append]; simp [hn]; intro a ha; grind

theorem keys_del (d : Dict κ α) (k : κ) : keys (del d k) = (keys d).filter (· ≠ k) := by
  induction d with
  | nil => simp [del, keys]
  | cons e d ih =>
    unfold del keys at ih ⊢
    by_cases h : e.1 = k <;> simp [h] at ih ⊢ <;> exact ih

theorem nodup_keys_del {d : Dict κ α} (hn : (keys d).Nodup) (k : κ) :
    (keys (del d k)).Nodup := by
  rw [keys_del]; exact hn.filter _

theorem mem_keys_del {d : Dict κ α} {k k2 : κ} :
    k2 ∈ keys (del d k) ↔ k2 ∈ keys d ∧ k2 ≠ k := by
  rw [keys_del]; simp

omit [DecidableEq κ] in
theorem mem_values {d : Dict κ α} {v : α} : v ∈ values d ↔ ∃ k, (k, v) ∈ d := by
  simp [values]

theorem length_set_of_not_mem {d : Dict κ α} {k : κ} {v : α} (h : k ∉ keys d) :
    (set d k v).length = d.length + 1 := by
  have := congrArg List.length (keys_set d k v)
  rw [if_neg h] at this; simpa [keys] using this

theorem length_set_of_mem {d : Dict κ α} {k : κ} {v : α} (h : k ∈ keys d) :
    (set d k v).length = d.length := by
  have := congrArg List.length (keys_set d k v)
  rw [if_pos h] at this; simpa [keys] using this

end Dict
end Faucet
