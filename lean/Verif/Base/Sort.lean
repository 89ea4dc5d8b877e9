/-!
# Stable sorting

Python's `sorted` is a stable sort. The result of a stable sort is unique, so the model uses the simplest
one, which the kernel can evaluate on concrete lists.
-/

namespace Faucet

variable {α : Type}

/-- Insert before the first element that is not smaller. -/
def insertSorted (le : α → α → Bool) (a : α) : List α → List α
  | [] => [a]
  | b :: l => if le a b then a :: b :: l else b :: insertSorted le a l

/-- Stable insertion sort: Python's `sorted`. -/
def isort (le : α → α → Bool) : List α → List α
  | [] => []
  | a :: l => insertSorted le a (isort le l)

theorem insertSorted_perm (le : α → α → Bool) (a : α) (l : List α) :
    (insertSorted le a l).Perm (a :: l) := by
  induction l with
  | nil => simp [insertSorted]
  | cons b l ih =>
    unfold insertSorted
    split
    · exact .refl _
    · exact (ih.cons b).trans (.swap a b l)

theorem isort_perm (le : α → α → Bool) (l : List α) : (isort le l).Perm l := by
  induction l with
  | nil => exact .refl _
  | cons a l ih => exact (insertSorted_perm le a _).trans (ih.cons a)

@[simp] theorem mem_isort {le : α → α → Bool} {l : List α} {a : α} : a ∈ isort le l ↔ a ∈ l :=
  (isort_perm le l).mem_iff

@[simp] theorem length_isort {le : α → α → Bool} {l : List α} : (isort le l).length = l.length :=
  (isort_perm le l).length_eq

theorem insertSorted_pairwise {le : α → α → Bool}
    (htot : ∀ a b, le a b ∨ le b a) (htr : ∀ a b c, le a b → le b c → le a c)
    (a : α) {l : List α} (h : l.Pairwise (fun x y => le x y)) :
    (insertSorted le a l).Pairwise (fun x y => le x y) := by
  induction l with
  | nil => simp [insertSorted]
  | cons b l ih =>
    unfold insertSorted
    have hb := List.pairwise_cons.1 h
    split
    · rename_i hab
      refine List.pairwise_cons.2 ⟨?_, h⟩
      intro x hx
      rcases List.mem_cons.1 hx with rfl | hx
      · exact hab
      · exact htr _ _ _ hab (hb.1 x hx)
    · rename_i hab
      refine List.pairwise_cons.2 ⟨?_, ih hb.2⟩
      intro x hx
      rcases List.mem_cons.1 ((insertSorted_perm le a l).mem_iff.1 hx) with rfl | hx
      · exact (htot x b).resolve_left hab
      · exact hb.1 x hx

theorem isort_pairwise {le : α → α → Bool}
    (htot : ∀ a b, le a b ∨ le b a) (htr : ∀ a b c, le a b → le b c → le a c)
    (l : List α) : (isort le l).Pairwise (fun x y => le x y) := by
  induction l with
  | nil => exact .nil
  | cons a l ih => exact insertSorted_pairwise htot htr a ih

theorem isort_of_pairwise {le : α → α → Bool} {l : List α} (h : l.Pairwise (fun x y => le x y)) :
    isort le l = l := by
  induction l with
  | nil => rfl
  | cons a l ih =>
    have hb := List.pairwise_cons.1 h
    rw [isort, ih hb.2]
    cases l with
    | nil => rfl
    | cons b l => simp [insertSorted, hb.1 b (by simp)]

/-- Stability: elements that compare equal both ways keep their order. -/
theorem isort_filter_stable {le : α → α → Bool} (htr : ∀ a b c, le a b → le b c → le a c)
    (htot : ∀ a b, le a b ∨ le b a) (p : α → Bool)
    (hp : ∀ a b, p a → p b → le a b) (l : List α) :
    (isort le l).filter p = l.filter p := by
  have hins : ∀ (a : α) (l : List α), l.Pairwise (fun x y => le x y) →
      (insertSorted le a l).filter p = (a :: l).filter p := by
    intro a l hl
    induction l with
    | nil => rfl
    | cons b l ih =>
      unfold insertSorted
      have hb := List.pairwise_cons.1 hl
      split
      · rfl
      · rename_i hab
        rw [List.filter_cons, ih hb.2]
        by_cases hpa : p a <;> by_cases hpb : p b
        · exact absurd (hp a b hpa hpb) hab
        · simp [hpa, hpb]
        · simp [hpa, hpb]
        · simp [hpa, hpb]
  induction l with
  | nil => rfl
  | cons a l ih =>
    rw [isort, hins a _ (isort_pairwise htot htr l), List.filter_cons, List.filter_cons, ih]

theorem isort_eq_nil {le : α → α → Bool} {l : List α} : isort le l = [] ↔ l = [] := by
  constructor
  · intro h; have := length_isort (le := le) (l := l); rw [h] at this
    exact List.eq_nil_of_length_eq_zero (by simpa using this.symm)
  · rintro rfl; rfl

/-- Two sorted lists with the same elements are equal when the order is antisymmetric on them. -/
theorem sorted_perm_unique {le : α → α → Bool}
    {l₁ l₂ : List α} (hp : l₁.Perm l₂) (h1 : l₁.Pairwise (fun x y => le x y))
    (h2 : l₂.Pairwise (fun x y => le x y))
    (hanti : ∀ a b, a ∈ l₁ → b ∈ l₁ → le a b → le b a → a = b) : l₁ = l₂ := by
  induction l₁ generalizing l₂ with
  | nil => exact (List.Perm.nil_eq hp)
  | cons a l₁ ih =>
    cases l₂ with
    | nil => exact absurd hp.length_eq (by simp)
    | cons b l₂ =>
      have ha := List.pairwise_cons.1 h1
      have hb := List.pairwise_cons.1 h2
      have hab : a = b := by
        have m1 : a ∈ b :: l₂ := hp.mem_iff.1 (by simp)
        have m2 : b ∈ a :: l₁ := hp.mem_iff.2 (by simp)
        rcases List.mem_cons.1 m1 with h | h
        · exact h
        · rcases List.mem_cons.1 m2 with h' | h'
          · exact h'.symm
          · exact hanti a b (by simp) (List.mem_cons_of_mem _ h') (ha.1 b h') (hb.1 a h)
      subst hab
      rw [ih (List.Perm.cons_inv hp) ha.2 hb.2
        (fun x y hx hy => hanti x y (List.mem_cons_of_mem _ hx) (List.mem_cons_of_mem _ hy))]

end Faucet
