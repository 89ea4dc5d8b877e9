import Verif.Ranges.Model
import Mathlib.Data.Nat.Digits.Defs
import Mathlib.Tactic.ByContra

/-!
# What a range expression lists
-/

namespace Faucet.Ranges

/-! ## Specification -/

/-- Neither a digit nor a dash: what separates the items of an expression. -/
def isSep : Ch → Bool
  | .other _ => true
  | _ => false

/-- The items of an expression. -/
noncomputable def items (t : Text) : List Text := t.splitOnP isSep

/-- A number in decimal. -/
def Digits (w : Text) : Prop := w ≠ [] ∧ ∀ c ∈ w, c.isDigit = true

/-- The value of a number in decimal, its last digit being the lowest. -/
def value (w : Text) : Nat := Nat.ofDigits 10 (w.reverse.map Ch.val)

/-- `w` is the range from `a` to `b`. -/
def IsRange (w a b : Text) : Prop := Digits a ∧ Digits b ∧ w = a ++ .dash :: b

/-- Every item is empty, a number or a range. -/
def WellFormed (t : Text) : Prop :=
  ∀ w ∈ items t, w = [] ∨ Digits w ∨ ∃ a b, IsRange w a b

/-- The expression lists port `n`: as a number, or between the ends of a range. -/
def Listed (t : Text) (n : Nat) : Prop :=
  ∃ w ∈ items t, (Digits w ∧ value w = n) ∨ ∃ a b, IsRange w a b ∧ value a ≤ n ∧ n ≤ value b

/-- No range is written within another one, as `5-9` is in `35-91`. -/
def NoNesting (t : Text) : Prop :=
  ∀ w ∈ items t, ∀ w' ∈ items t, ∀ a b c d, IsRange w a b → IsRange w' c d → a <:+ c → b <+: d →
    w = w'

/-- A range of the expression goes the wrong way or is of one port. -/
def Reversed (t : Text) : Prop := ∃ w ∈ items t, ∃ a b, IsRange w a b ∧ value b ≤ value a

/-! ## Texts and their items -/

def NoSep (w : Text) : Prop := ∀ c ∈ w, isSep c = false

theorem mem_take (p : Ch → Bool) (t : Text) : ∀ c ∈ t.takeWhile p, p c = true := by
  induction t with
  | nil => simp
  | cons x t ih =>
    intro c hc
    rw [List.takeWhile_cons] at hc
    split at hc
    · rename_i hx
      rcases List.mem_cons.1 hc with rfl | h
      · exact hx
      · exact ih c h
    · simp at hc

theorem text_induction {P : Text → Prop} (h1 : ∀ w, NoSep w → P w)
    (h2 : ∀ w x t, NoSep w → P t → P (w ++ .other x :: t)) (t : Text) : P t := by
  generalize hn : t.length = n
  induction n using Nat.strongRecOn generalizing t with
  | _ n ih =>
    have hsplit : t.takeWhile (fun c => !(isSep c)) ++ t.dropWhile (fun c => !(isSep c)) = t :=
      List.takeWhile_append_dropWhile
    have hw : NoSep (t.takeWhile (fun c => !(isSep c))) := fun c hc => by
      simpa using mem_take (fun c => !(isSep c)) t c hc
    cases hd : t.dropWhile (fun c => !(isSep c)) with
    | nil =>
      rw [hd, List.append_nil] at hsplit
      rw [← hsplit]; exact h1 _ hw
    | cons c r =>
      rw [hd] at hsplit
      have hc : isSep c = true := by
        have := List.head_dropWhile_not (l := t) (fun c => !(isSep c)) (by rw [hd]; simp)
        simpa [hd] using this
      cases c with
      | other x =>
        rw [← hsplit]
        refine h2 _ x r hw (ih r.length ?_ r rfl)
        have := congrArg List.length hsplit
        simp at this; omega
      | dig n => simp [isSep] at hc
      | dash => simp [isSep] at hc

theorem items_single {w : Text} (h : NoSep w) : items w = [w] := List.splitOnP_eq_singleton h

theorem items_cons {w t : Text} (x : Nat) (h : NoSep w) :
    items (w ++ .other x :: t) = w :: items t :=
  List.splitOnP_append_cons_of_forall_mem h _ rfl _

theorem items_noSep (t : Text) : ∀ w ∈ items t, NoSep w := by
  induction t using text_induction with
  | h1 w h => rw [items_single h]; simpa using h
  | h2 w x t h ih => rw [items_cons x h]; simpa using ⟨h, ih⟩

/-! ## Scanning -/

/-- A matcher that consumes something and does not look past a separator. -/
structure Local {α : Type} (m : Text → Option (α × Text)) : Prop where
  shrinks : ∀ t a r, m t = some (a, r) → r.length < t.length
  sub : ∀ t a r, m t = some (a, r) → ∀ c ∈ r, c ∈ t
  loc : ∀ w x t, NoSep w → m (w ++ .other x :: t) = (m w).map (fun y => (y.1, y.2 ++ .other x :: t))
  nil : m [] = none

theorem scan_fuel {α : Type} {m : Text → Option (α × Text)} (hm : Local m) :
    ∀ (k n n' : Nat) (t : Text), t.length ≤ k → t.length ≤ n → t.length ≤ n' →
      scan m n t = scan m n' t
  | k, 0, 0, _, _, _, _ => rfl
  | k, 0, n' + 1, t, _, h, _ => by
    rw [List.length_eq_zero_iff.1 (Nat.le_zero.1 h)]; rfl
  | k, n + 1, 0, t, _, _, h => by
    rw [List.length_eq_zero_iff.1 (Nat.le_zero.1 h)]; rfl
  | k, n + 1, n' + 1, [], _, _, _ => rfl
  | 0, n + 1, n' + 1, c :: t, h, _, _ => by simp at h
  | k + 1, n + 1, n' + 1, c :: t, hk, h1, h2 => by
    simp only [List.length_cons] at hk h1 h2
    unfold scan
    cases hx : m (c :: t) with
    | none => exact scan_fuel hm k n n' t (by omega) (by omega) (by omega)
    | some y =>
      obtain ⟨a, r⟩ := y
      have := hm.shrinks _ _ _ hx
      simp only [List.length_cons] at this
      simp only [scan_fuel hm k n n' r (by omega) (by omega) (by omega)]

theorem findAll_nil {α : Type} (m : Text → Option (α × Text)) : findAll m [] = [] := rfl

theorem findAll_some {α : Type} {m : Text → Option (α × Text)} (hm : Local m) {c : Ch} {t : Text}
    {a : α} {r : Text} (h : m (c :: t) = some (a, r)) : findAll m (c :: t) = a :: findAll m r := by
  have := hm.shrinks _ _ _ h
  simp only [List.length_cons] at this
  unfold findAll
  rw [List.length_cons]
  conv => lhs; unfold scan
  rw [h]
  simp only [scan_fuel hm t.length t.length r.length r (by omega) (by omega) (by omega)]

theorem findAll_none {α : Type} {m : Text → Option (α × Text)} {c : Ch} {t : Text}
    (h : m (c :: t) = none) : findAll m (c :: t) = findAll m t := by
  unfold findAll
  rw [List.length_cons]
  conv => lhs; unfold scan
  rw [h]

theorem findAll_sep {α : Type} {m : Text → Option (α × Text)} (hm : Local m) (x : Nat) (t : Text) :
    ∀ (k : Nat) (w : Text), w.length ≤ k → NoSep w →
      findAll m (w ++ .other x :: t) = findAll m w ++ findAll m t
  | _, [], _, _ => by
    have : m ([] ++ .other x :: t) = none := by rw [hm.loc [] x t (by simp [NoSep]), hm.nil]; rfl
    exact findAll_none this
  | 0, c :: w, h, _ => by simp at h
  | k + 1, c :: w, hk, hw => by
    simp only [List.length_cons] at hk
    have hl := hm.loc (c :: w) x t hw
    cases hx : m (c :: w) with
    | none =>
      rw [hx] at hl
      rw [findAll_none hx, List.cons_append, findAll_none (by simpa using hl)]
      exact findAll_sep hm x t k w (by omega) (fun c h => hw c (.tail _ h))
    | some y =>
      obtain ⟨a, r⟩ := y
      rw [hx] at hl
      have h1 := hm.shrinks _ _ _ hx
      simp only [List.length_cons] at h1
      rw [findAll_some hm hx, List.cons_append, findAll_some hm (by simpa using hl), List.cons_append]
      rw [findAll_sep hm x t k r (by omega) (fun c h => hw c (hm.sub _ _ _ hx c h))]

theorem findAll_items {α : Type} {m : Text → Option (α × Text)} (hm : Local m) (t : Text) :
    findAll m t = (items t).flatMap (findAll m) := by
  induction t using text_induction with
  | h1 w h => rw [items_single h]; simp
  | h2 w x t h ih => rw [items_cons x h, findAll_sep hm x t _ w le_rfl h, ih]; rfl

/-! ## The two patterns -/

theorem take_sep {w : Text} (x : Nat) (t : Text) :
    (w ++ .other x :: t).takeWhile Ch.isDigit = w.takeWhile Ch.isDigit ∧
    (w ++ .other x :: t).dropWhile Ch.isDigit = w.dropWhile Ch.isDigit ++ .other x :: t := by
  induction w with
  | nil => exact ⟨rfl, rfl⟩
  | cons c w ih =>
    cases hc : c.isDigit with
    | true => simp only [List.cons_append, List.takeWhile_cons, List.dropWhile_cons, hc, if_true, ih.1,
        ih.2, and_self]
    | false => simp [List.takeWhile_cons, List.dropWhile_cons, hc]

theorem matchNum_some {t a r : Text} (h : matchNum t = some (a, r)) :
    a = t.takeWhile Ch.isDigit ∧ r = t.dropWhile Ch.isDigit ∧ a ≠ [] := by
  unfold matchNum at h
  simp only at h
  split at h
  · simp at h
  · rename_i hc
    simp only [Option.some.injEq, Prod.mk.injEq] at h
    exact ⟨h.1.symm, h.2.symm, by rw [← h.1]; simpa using hc⟩

theorem matchNum_append {t a r : Text} (h : matchNum t = some (a, r)) : t = a ++ r := by
  obtain ⟨h1, h2, -⟩ := matchNum_some h
  rw [h1, h2, List.takeWhile_append_dropWhile]

theorem matchNum_local : Local matchNum where
  shrinks t a r h := by
    have := matchNum_append h
    have h2 := (matchNum_some h).2.2
    rw [this, List.length_append]
    have : 0 < a.length := List.length_pos_iff.2 h2
    omega
  sub t a r h c hc := by rw [matchNum_append h]; exact List.mem_append_right _ hc
  loc w x t _ := by
    unfold matchNum
    simp only [(take_sep x t).1, (take_sep x t).2]
    split <;> simp_all
  nil := rfl

theorem matchRange_some {t a b r : Text} (h : matchRange t = some ((a, b), r)) :
    ∃ r', matchNum t = some (a, .dash :: r') ∧ matchNum r' = some (b, r) := by
  unfold matchRange at h
  split at h
  · rename_i a' r' h1
    cases h2 : matchNum r' with
    | none => rw [h2] at h; simp at h
    | some y =>
      obtain ⟨b', r''⟩ := y
      rw [h2] at h
      simp only [Option.some.injEq, Prod.mk.injEq] at h
      obtain ⟨⟨rfl, rfl⟩, rfl⟩ := h
      exact ⟨r', h1, h2⟩
  · simp at h

theorem matchRange_of {t a b r r' : Text} (h1 : matchNum t = some (a, .dash :: r'))
    (h2 : matchNum r' = some (b, r)) : matchRange t = some ((a, b), r) := by
  unfold matchRange; rw [h1]; simp only [h2]

theorem matchRange_local : Local matchRange where
  shrinks t y r h := by
    obtain ⟨a, b⟩ := y
    obtain ⟨r', h1, h2⟩ := matchRange_some h
    have := matchNum_local.shrinks _ _ _ h1
    have := matchNum_local.shrinks _ _ _ h2
    simp only [List.length_cons] at *
    omega
  sub t y r h c hc := by
    obtain ⟨a, b⟩ := y
    obtain ⟨r', h1, h2⟩ := matchRange_some h
    exact matchNum_local.sub _ _ _ h1 c (.tail _ (matchNum_local.sub _ _ _ h2 c hc))
  loc w x t hw := by
    cases h1 : matchNum w with
    | none =>
      have h2 := matchNum_local.loc w x t hw
      rw [h1] at h2
      unfold matchRange
      rw [h1, h2]; rfl
    | some y =>
      obtain ⟨a, r⟩ := y
      have h2 := matchNum_local.loc w x t hw
      rw [h1] at h2
      simp only [Option.map_some] at h2
      have hr : NoSep r := fun c hc => hw c (matchNum_local.sub _ _ _ h1 c hc)
      cases r with
      | nil => unfold matchRange; rw [h1, h2]; rfl
      | cons c r =>
        cases c with
        | dig n => unfold matchRange; rw [h1, h2]; rfl
        | other n => unfold matchRange; rw [h1, h2]; rfl
        | dash =>
          have hr' : NoSep r := fun c hc => hr c (.tail _ hc)
          have h3 := matchNum_local.loc r x t hr'
          cases h4 : matchNum r with
          | none =>
            rw [h4] at h3
            unfold matchRange
            rw [h1, h2]
            simp only [List.cons_append, h4]
            rw [h3]; rfl
          | some z =>
            obtain ⟨b, r'⟩ := z
            rw [h4] at h3
            rw [matchRange_of h1 h4, matchRange_of (by simpa using h2) (by simpa using h3)]
            rfl
  nil := rfl

/-! ## Items -/

theorem take_digits {a r : Text} (ha : ∀ c ∈ a, c.isDigit = true)
    (hr : ∀ c ∈ r.head?, c.isDigit = false) :
    (a ++ r).takeWhile Ch.isDigit = a ∧ (a ++ r).dropWhile Ch.isDigit = r := by
  induction a with
  | nil =>
    cases r with
    | nil => exact ⟨rfl, rfl⟩
    | cons c r =>
      have : c.isDigit = false := hr c rfl
      simp [List.takeWhile_cons, List.dropWhile_cons, this]
  | cons c a ih =>
    have hc := ha c (.head _)
    have := ih (fun c h => ha c (.tail _ h))
    simp only [List.cons_append, List.takeWhile_cons, List.dropWhile_cons, hc, if_true, this.1, this.2,
      and_self]

theorem matchNum_digits {a r : Text} (ha : Digits a) (hr : ∀ c ∈ r.head?, c.isDigit = false) :
    matchNum (a ++ r) = some (a, r) := by
  obtain ⟨h1, h2⟩ := take_digits ha.2 hr
  unfold matchNum
  simp only [h1, h2]
  rw [if_neg (by simpa using ha.1)]

theorem nums_digits {a : Text} (ha : Digits a) : findAll matchNum a = [a] := by
  obtain ⟨c, t, rfl⟩ := List.exists_cons_of_ne_nil ha.1
  have := matchNum_digits ha (r := []) (by simp)
  rw [List.append_nil] at this
  rw [findAll_some matchNum_local this, findAll_nil]

theorem ranges_digits {a : Text} (ha : ∀ c ∈ a, c.isDigit = true) : findAll matchRange a = [] := by
  induction a with
  | nil => rfl
  | cons c a ih =>
    have : matchRange (c :: a) = none := by
      have h := matchNum_digits (a := c :: a) (r := []) ⟨by simp, ha⟩ (by simp)
      rw [List.append_nil] at h
      unfold matchRange
      rw [h]
    rw [findAll_none this]
    exact ih (fun c h => ha c (.tail _ h))

theorem ranges_range {a b : Text} (ha : Digits a) (hb : Digits b) :
    findAll matchRange (a ++ .dash :: b) = [(a, b)] := by
  have h1 := matchNum_digits ha (r := .dash :: b) (by simp [Ch.isDigit])
  have h2 := matchNum_digits hb (r := []) (by simp)
  rw [List.append_nil] at h2
  have h3 := matchRange_of h1 h2
  obtain ⟨c, t, rfl⟩ := List.exists_cons_of_ne_nil ha.1
  rw [List.cons_append] at h3 ⊢
  rw [findAll_some matchRange_local h3, findAll_nil]

theorem dash_not_digits {a : Text} (ha : ∀ c ∈ a, c.isDigit = true) : Ch.dash ∉ a := fun h => by
  simpa [Ch.isDigit] using ha _ h

theorem split_dash {a b c d : Text} (ha : Ch.dash ∉ a) (hc : Ch.dash ∉ c)
    (h : a ++ .dash :: b = c ++ .dash :: d) : a = c ∧ b = d := by
  induction a generalizing c with
  | nil =>
    cases c with
    | nil => simpa using h
    | cons x c =>
      simp only [List.nil_append, List.cons_append, List.cons.injEq] at h
      exact absurd (h.1 ▸ List.mem_cons_self) hc
  | cons x a ih =>
    cases c with
    | nil =>
      simp only [List.nil_append, List.cons_append, List.cons.injEq] at h
      exact absurd (h.1 ▸ List.mem_cons_self) ha
    | cons y c =>
      simp only [List.cons_append, List.cons.injEq] at h
      have := ih (fun h => ha (.tail _ h)) (fun h => hc (.tail _ h)) h.2
      exact ⟨by rw [h.1, this.1], this.2⟩

theorem isRange_inj {w a b c d : Text} (h1 : IsRange w a b) (h2 : IsRange w c d) : a = c ∧ b = d :=
  split_dash (dash_not_digits h1.1.2) (dash_not_digits h2.1.2) (h1.2.2.symm.trans h2.2.2)

theorem range_not_digits {w a b : Text} (h1 : IsRange w a b) : ¬ Digits w := fun h =>
  dash_not_digits h.2 (by rw [h1.2.2]; simp)

/-- The ranges found are the items that are ranges. -/
theorem mem_ranges {t : Text} (ht : WellFormed t) {a b : Text} :
    (a, b) ∈ findAll matchRange t ↔ ∃ w ∈ items t, IsRange w a b := by
  rw [findAll_items matchRange_local, List.mem_flatMap]
  constructor
  · rintro ⟨w, hw, h⟩
    rcases ht w hw with rfl | hd | ⟨c, d, hr⟩
    · rw [findAll_nil] at h; simp at h
    · rw [ranges_digits hd.2] at h; simp at h
    · rw [hr.2.2, ranges_range hr.1 hr.2.1] at h
      simp only [List.mem_singleton, Prod.mk.injEq] at h
      obtain ⟨rfl, rfl⟩ := h
      exact ⟨w, hw, hr⟩
  · rintro ⟨w, hw, hr⟩
    refine ⟨w, hw, ?_⟩
    rw [hr.2.2, ranges_range hr.1 hr.2.1]
    exact .head _

/-! ## Removing -/

theorem cut_fuel {p : Text} (hp : p ≠ []) : ∀ (k n n' : Nat) (t : Text), t.length ≤ k →
    t.length ≤ n → t.length ≤ n' → cut p n t = cut p n' t
  | k, 0, 0, _, _, _, _ => rfl
  | k, 0, n' + 1, t, _, h, _ => by
    rw [List.length_eq_zero_iff.1 (Nat.le_zero.1 h)]; rfl
  | k, n + 1, 0, t, _, _, h => by
    rw [List.length_eq_zero_iff.1 (Nat.le_zero.1 h)]; rfl
  | k, n + 1, n' + 1, [], _, _, _ => rfl
  | 0, n + 1, n' + 1, c :: t, h, _, _ => by simp at h
  | k + 1, n + 1, n' + 1, c :: t, hk, h1, h2 => by
    simp only [List.length_cons] at hk h1 h2
    have : 0 < p.length := List.length_pos_iff.2 hp
    unfold cut
    have hl : ((c :: t).drop p.length).length ≤ t.length := by simp; omega
    rw [cut_fuel hp k n n' t (by omega) (by omega) (by omega),
      cut_fuel hp k n n' ((c :: t).drop p.length) (by omega) (by omega) (by omega)]

theorem remove_nil (p : Text) : remove p [] = [] := rfl

theorem remove_prefix {p t : Text} (hp : p ≠ []) (h : p <+: t) :
    remove p t = remove p (t.drop p.length) := by
  have hpos : 0 < p.length := List.length_pos_iff.2 hp
  cases t with
  | nil => rw [List.prefix_nil] at h; exact absurd h hp
  | cons c t =>
    unfold remove
    rw [List.length_cons]
    conv => lhs; unfold cut
    rw [if_pos (by simpa [List.isPrefixOf_iff_prefix] using h)]
    have hl : ((c :: t).drop p.length).length ≤ t.length := by simp; omega
    exact cut_fuel hp t.length _ _ _ hl hl le_rfl

theorem remove_skip {p : Text} {c : Ch} {t : Text} (h : ¬ p <+: c :: t) :
    remove p (c :: t) = c :: remove p t := by
  unfold remove
  rw [List.length_cons]
  conv => lhs; unfold cut
  rw [if_neg (by simpa [List.isPrefixOf_iff_prefix] using h)]

theorem remove_not_infix {p t : Text} (h : ¬ p <:+: t) : remove p t = t := by
  induction t with
  | nil => rfl
  | cons c t ih =>
    rw [remove_skip (fun hp => h hp.isInfix), ih (fun hi => h (hi.trans (List.suffix_cons c t).isInfix))]

theorem remove_self {p : Text} (hp : p ≠ []) : remove p p = [] := by
  rw [remove_prefix hp (List.prefix_refl p), List.drop_length, remove_nil]

theorem prefix_sep {p w : Text} (hp : NoSep p) (x : Nat) (t : Text) :
    p <+: w ++ .other x :: t ↔ p <+: w := by
  constructor
  · intro h
    induction p generalizing w with
    | nil => exact List.nil_prefix
    | cons c p ih =>
      cases w with
      | nil =>
        rw [List.nil_append, List.cons_prefix_cons] at h
        have := hp c (.head _)
        rw [h.1] at this; simp [isSep] at this
      | cons d w =>
        rw [List.cons_append, List.cons_prefix_cons] at h
        rw [List.cons_prefix_cons]
        exact ⟨h.1, ih (fun c hc => hp c (.tail _ hc)) h.2⟩
  · exact fun h => h.trans (List.prefix_append _ _)

theorem remove_sep {p : Text} (hp : p ≠ []) (hs : NoSep p) (x : Nat) (t : Text) :
    ∀ (k : Nat) (w : Text), w.length ≤ k →
      remove p (w ++ .other x :: t) = remove p w ++ .other x :: remove p t
  | _, [], _ => by
    have : ¬ p <+: .other x :: t := by
      have := prefix_sep (w := []) hs x t
      rw [List.nil_append, List.prefix_nil] at this
      rw [this]; exact hp
    rw [List.nil_append, remove_skip this]; rfl
  | 0, c :: w, h => by simp at h
  | k + 1, c :: w, hk => by
    simp only [List.length_cons] at hk
    by_cases h : p <+: c :: w
    · have h' := (prefix_sep hs x t).2 h
      have hpos : 0 < p.length := List.length_pos_iff.2 hp
      rw [remove_prefix hp h', remove_prefix hp h, List.drop_append_of_le_length h.length_le]
      exact remove_sep hp hs x t k _ (by simp; omega)
    · have h' : ¬ p <+: c :: (w ++ .other x :: t) := fun h' => h ((prefix_sep hs x t).1 h')
      rw [remove_skip h, List.cons_append, remove_skip h',
        remove_sep hp hs x t k w (by omega)]
      rfl

theorem remove_sub {p : Text} (hp : p ≠ []) : ∀ (k : Nat) (w : Text), w.length ≤ k →
    ∀ c ∈ remove p w, c ∈ w
  | _, [], _, c, h => by rw [remove_nil] at h; exact h
  | 0, c :: w, h, _, _ => by simp at h
  | k + 1, c :: w, hk, d, hd => by
    simp only [List.length_cons] at hk
    by_cases h : p <+: c :: w
    · have hpos : 0 < p.length := List.length_pos_iff.2 hp
      rw [remove_prefix hp h] at hd
      exact List.mem_of_mem_drop (remove_sub hp k _ (by simp; omega) d hd)
    · rw [remove_skip h, List.mem_cons] at hd
      rcases hd with rfl | hd
      · exact .head _
      · exact .tail _ (remove_sub hp k w (by omega) d hd)

theorem items_remove {p : Text} (hp : p ≠ []) (hs : NoSep p) (t : Text) :
    items (remove p t) = (items t).map (remove p) := by
  have hns : ∀ w, NoSep w → NoSep (remove p w) :=
    fun w hw c hc => hw c (remove_sub hp _ w le_rfl c hc)
  induction t using text_induction with
  | h1 w h => rw [items_single h, items_single (hns w h)]; rfl
  | h2 w x t h ih =>
    rw [items_cons x h, remove_sep hp hs x t _ w le_rfl, items_cons x (hns w h), ih]; rfl

theorem rangeText_ne (r : Text × Text) : rangeText r ≠ [] := by unfold rangeText; simp

theorem rangeText_noSep {a b : Text} (ha : Digits a) (hb : Digits b) : NoSep (rangeText (a, b)) := by
  intro c hc
  unfold rangeText at hc
  simp only [List.mem_append, List.mem_cons] at hc
  have dig : ∀ c : Ch, c.isDigit = true → isSep c = false := by
    intro c h; cases c <;> simp_all [Ch.isDigit, isSep]
  rcases hc with h | rfl | h
  · exact dig c (ha.2 c h)
  · rfl
  · exact dig c (hb.2 c h)

theorem remove_digits (r : Text × Text) {w : Text} (hw : ∀ c ∈ w, c.isDigit = true) :
    remove (rangeText r) w = w := by
  apply remove_not_infix
  intro h
  have : Ch.dash ∈ rangeText r := by unfold rangeText; simp
  exact dash_not_digits hw (h.subset this)

theorem infix_range {a b c d : Text} (hc : Digits c) (hd : Digits d)
    (h : rangeText (a, b) <:+: c ++ .dash :: d) : a <:+ c ∧ b <+: d := by
  obtain ⟨s, u, h⟩ := h
  unfold rangeText at h
  have hcount := congrArg (List.count Ch.dash) h
  have h1 : List.count Ch.dash c = 0 := List.count_eq_zero.2 (dash_not_digits hc.2)
  have h2 : List.count Ch.dash d = 0 := List.count_eq_zero.2 (dash_not_digits hd.2)
  simp only [List.count_append, List.count_cons_self, h1, h2] at hcount
  have h3 : Ch.dash ∉ s ++ a := by
    rw [← List.count_eq_zero, List.count_append]; omega
  have h4 : (s ++ a) ++ .dash :: (b ++ u) = c ++ .dash :: d := by
    rw [← h]; simp
  obtain ⟨h5, h6⟩ := split_dash h3 (dash_not_digits hc.2) h4
  exact ⟨⟨s, h5⟩, ⟨u, h6⟩⟩

theorem items_removeAll (t : Text) (rs : List (Text × Text))
    (hr : ∀ r ∈ rs, Digits r.1 ∧ Digits r.2) :
    items (rs.foldl (fun t r => remove (rangeText r) t) t) =
      (items t).map (fun w => rs.foldl (fun t r => remove (rangeText r) t) w) := by
  induction rs generalizing t with
  | nil => simp
  | cons r rs ih =>
    have h := hr r (.head _)
    rw [List.foldl_cons, ih _ (fun r h => hr r (.tail _ h)),
      items_remove (rangeText_ne r) (rangeText_noSep h.1 h.2), List.map_map]
    rfl

theorem removeAll_digits (rs : List (Text × Text)) {w : Text} (hw : ∀ c ∈ w, c.isDigit = true) :
    rs.foldl (fun t r => remove (rangeText r) t) w = w := by
  induction rs with
  | nil => rfl
  | cons r rs ih => rw [List.foldl_cons, remove_digits r hw, ih]

theorem removeAll_range (rs : List (Text × Text)) {c d : Text} (hc : Digits c) (hd : Digits d)
    (hno : ∀ r ∈ rs, r.1 <:+ c → r.2 <+: d → r = (c, d)) (hm : (c, d) ∈ rs) :
    rs.foldl (fun t r => remove (rangeText r) t) (c ++ .dash :: d) = [] := by
  induction rs with
  | nil => simp at hm
  | cons r rs ih =>
    rw [List.foldl_cons]
    by_cases h : r = (c, d)
    · subst h
      have : remove (rangeText (c, d)) (c ++ .dash :: d) = [] := remove_self (rangeText_ne _)
      rw [this]
      exact removeAll_digits rs (by simp)
    · rw [remove_not_infix (fun hi => h (hno r (.head _) (infix_range hc hd hi).1
        (infix_range hc hd hi).2))]
      refine ih (fun r hr => hno r (.tail _ hr)) ?_
      rcases List.mem_cons.1 hm with e | e
      · exact absurd e.symm h
      · exact e

/-! ## Values -/

theorem toNat_value (w : Text) : toNat w = value w := by
  unfold toNat value
  have : ∀ (w : Text) (acc : Nat), w.foldl (fun a c => 10 * a + c.val) acc =
      Nat.ofDigits 10 (w.reverse.map Ch.val ++ [acc]) := by
    intro w
    induction w with
    | nil => intro acc; simp [Nat.ofDigits]
    | cons c w ih =>
      intro acc
      rw [List.foldl_cons, ih]
      simp only [List.reverse_cons, List.map_append, List.map_cons, List.map_nil,
        List.append_assoc, Nat.ofDigits_append, Nat.ofDigits_singleton, List.length_map,
        List.length_reverse, List.singleton_append, Nat.ofDigits_cons]
      simp only [Nat.ofDigits_nil]
      congr 2
      omega
  rw [this, Nat.ofDigits_append]
  simp [Nat.ofDigits]

theorem mem_span {a b n : Nat} : n ∈ span a b ↔ a ≤ n ∧ n ≤ b := by
  unfold span
  rw [List.mem_map]
  constructor
  · rintro ⟨i, hi, rfl⟩
    rw [List.mem_range] at hi
    omega
  · intro h
    exact ⟨n - a, List.mem_range.2 (by omega), by omega⟩

/-! ## The expression -/

theorem parse_some {t : Text} {s : List Nat} (h : parseRange t = some s) :
    s = (findAll matchRange t).flatMap (fun r => span (toNat r.1) (toNat r.2)) ++
      (findAll matchNum ((findAll matchRange t).foldl (fun t r => remove (rangeText r) t) t)).map
        toNat := by
  unfold parseRange at h
  simp only at h
  split at h
  · simp at h
  split at h
  · simp at h
  · simpa using h.symm

theorem ranges_of_digits {t : Text} (ht : WellFormed t) :
    ∀ r ∈ findAll matchRange t, Digits r.1 ∧ Digits r.2 := by
  rintro ⟨a, b⟩ h
  obtain ⟨w, -, hr⟩ := (mem_ranges ht).1 h
  exact ⟨hr.1, hr.2.1⟩

/-- C35: a range expression that is accepted configures every port it lists. -/
theorem listed_configured (t : Text) (ht : WellFormed t) (s : List Nat)
    (h : parseRange t = some s) (n : Nat) (hn : Listed t n) : n ∈ s := by
  rw [parse_some h, List.mem_append]
  obtain ⟨w, hw, ⟨hd, hv⟩ | ⟨a, b, hr, h1, h2⟩⟩ := hn
  · right
    rw [List.mem_map]
    refine ⟨w, ?_, by rw [toNat_value, hv]⟩
    rw [findAll_items matchNum_local, items_removeAll _ _ (ranges_of_digits ht), List.mem_flatMap]
    refine ⟨w, List.mem_map.2 ⟨w, hw, removeAll_digits _ hd.2⟩, ?_⟩
    rw [nums_digits hd]; exact .head _
  · left
    rw [List.mem_flatMap]
    exact ⟨(a, b), (mem_ranges ht).2 ⟨w, hw, hr⟩,
      mem_span.2 (by rw [toNat_value, toNat_value]; exact ⟨h1, h2⟩)⟩

/-- C35: a range expression none of whose ranges is written within another one configures exactly
the ports it lists.  Without that condition it may configure others as well
(`nested_range_defect`). -/
theorem exactly_listed_partial (t : Text) (ht : WellFormed t) (hn : NoNesting t) (s : List Nat)
    (h : parseRange t = some s) (n : Nat) : n ∈ s ↔ Listed t n := by
  refine ⟨fun hm => ?_, listed_configured t ht s h n⟩
  rw [parse_some h, List.mem_append] at hm
  rcases hm with hm | hm
  · rw [List.mem_flatMap] at hm
    obtain ⟨⟨a, b⟩, hr, hs⟩ := hm
    obtain ⟨w, hw, hr⟩ := (mem_ranges ht).1 hr
    rw [mem_span, toNat_value, toNat_value] at hs
    exact ⟨w, hw, .inr ⟨a, b, hr, hs⟩⟩
  · rw [List.mem_map] at hm
    obtain ⟨ds, hds, hv⟩ := hm
    rw [findAll_items matchNum_local, items_removeAll _ _ (ranges_of_digits ht), List.mem_flatMap]
      at hds
    obtain ⟨w', hw', hds⟩ := hds
    rw [List.mem_map] at hw'
    obtain ⟨w, hw, rfl⟩ := hw'
    rcases ht w hw with rfl | hd | ⟨c, d, hr⟩
    · rw [removeAll_digits _ (by simp), findAll_nil] at hds; simp at hds
    · rw [removeAll_digits _ hd.2, nums_digits hd, List.mem_singleton] at hds
      subst hds
      exact ⟨ds, hw, .inl ⟨hd, by rw [← toNat_value]; exact hv⟩⟩
    · have : List.foldl (fun t r => remove (rangeText r) t) w (findAll matchRange t) = [] := by
        rw [hr.2.2]
        refine removeAll_range _ hr.1 hr.2.1 ?_ ((mem_ranges ht).2 ⟨w, hw, hr⟩)
        rintro ⟨a, b⟩ hm h1 h2
        obtain ⟨v, hv, hr'⟩ := (mem_ranges ht).1 hm
        have := hn v hv w hw a b c d hr' hr h1 h2
        subst this
        obtain ⟨rfl, rfl⟩ := isRange_inj hr' hr
        rfl
      rw [this, findAll_nil] at hds
      simp at hds

/-- C35: an expression is rejected exactly if a range in it goes the wrong way, or is of one port, or
it lists nothing at all. -/
theorem rejected_iff (t : Text) (ht : WellFormed t) (hn : NoNesting t) :
    parseRange t = none ↔ Reversed t ∨ ∀ n, ¬ Listed t n := by
  have hrev : (findAll matchRange t).any (fun r => decide (toNat r.1 ≥ toNat r.2)) = true ↔
      Reversed t := by
    rw [List.any_eq_true]
    constructor
    · rintro ⟨⟨a, b⟩, hm, h⟩
      obtain ⟨w, hw, hr⟩ := (mem_ranges ht).1 hm
      simp only [decide_eq_true_eq, toNat_value] at h
      exact ⟨w, hw, a, b, hr, h⟩
    · rintro ⟨w, hw, a, b, hr, h⟩
      exact ⟨(a, b), (mem_ranges ht).2 ⟨w, hw, hr⟩, by simpa [toNat_value] using h⟩
  by_cases hr : Reversed t
  · refine ⟨fun _ => .inl hr, fun _ => ?_⟩
    unfold parseRange
    simp only
    rw [if_pos (hrev.2 hr)]
  · have hr' : ¬ ((findAll matchRange t).any (fun r => decide (toNat r.1 ≥ toNat r.2)) = true) :=
      fun h => hr (hrev.1 h)
    constructor
    · intro h
      right
      intro n hl
      unfold parseRange at h
      simp only at h
      rw [if_neg hr'] at h
      split at h
      · rename_i he
        have hs : parseRange t = none := by
          unfold parseRange; simp only; rw [if_neg hr', if_pos he]
        -- a listed port is among the numbers
        obtain ⟨w, hw, ⟨hd, hv⟩ | ⟨a, b, hra, h1, h2⟩⟩ := hl
        · rw [List.isEmpty_iff, List.append_eq_nil_iff, List.map_eq_nil_iff] at he
          have : w ∈ findAll matchNum ((findAll matchRange t).foldl
              (fun t r => remove (rangeText r) t) t) := by
            rw [findAll_items matchNum_local, items_removeAll _ _ (ranges_of_digits ht),
              List.mem_flatMap]
            refine ⟨w, List.mem_map.2 ⟨w, hw, removeAll_digits _ hd.2⟩, ?_⟩
            rw [nums_digits hd]; exact .head _
          rw [he.2] at this; simp at this
        · rw [List.isEmpty_iff, List.append_eq_nil_iff] at he
          have : n ∈ (findAll matchRange t).flatMap (fun r => span (toNat r.1) (toNat r.2)) := by
            rw [List.mem_flatMap]
            exact ⟨(a, b), (mem_ranges ht).2 ⟨w, hw, hra⟩,
              mem_span.2 (by rw [toNat_value, toNat_value]; exact ⟨h1, h2⟩)⟩
          rw [he.1] at this; simp at this
      · simp at h
    · rintro (h | h)
      · exact absurd h hr
      · cases hs : parseRange t with
        | none => rfl
        | some s =>
          have he : s ≠ [] := by
            unfold parseRange at hs
            simp only at hs
            rw [if_neg hr'] at hs
            split at hs
            · simp at hs
            · rename_i hne
              simp only [Option.some.injEq] at hs
              rw [← hs]
              simpa using hne
          obtain ⟨n, r, rfl⟩ := List.exists_cons_of_ne_nil he
          exact absurd ((exactly_listed_partial t ht hn _ hs n).1 (.head _)) (h n)

end Faucet.Ranges
