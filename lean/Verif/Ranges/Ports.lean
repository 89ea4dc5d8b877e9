import Verif.Ranges.Text

/-!
# Which ports are configured, and how
-/

namespace Faucet.Ranges

/-! ## Specification -/

/-- The number an interface's section gives, or else its key. -/
def numOf (kc : Key × Conf) : Key := kc.2.number.getD kc.1

/-- The range expression `rc` is accepted and configures port `n`. -/
def Covers (rc : Text × Conf) (n : Nat) : Prop := ∃ s, parseRange rc.1 = some s ∧ n ∈ s

/-- Two of the range expressions configure the same port. -/
def Overlap (ranges : List (Text × Conf)) : Prop :=
  ¬ ranges.Pairwise (fun a b => ∀ n, Covers a n → ¬ Covers b n)

/-! ## Dictionaries -/

theorem lookup_map (k : Key) (v : Key × Conf) : ∀ (d : Ports) (j : Key),
    (d.map (fun e => if e.1 = k then (k, v) else e)).lookup j =
      if j = k ∧ (d.lookup k).isSome then some v else d.lookup j
  | [], j => by simp
  | (k', v') :: d, j => by
    have ih := lookup_map k v d j
    rw [List.map_cons]
    by_cases h : k' = k
    · subst h
      rw [if_pos rfl]
      by_cases hj : j = k'
      · subst hj; simp [List.lookup_cons]
      · simp only [List.lookup_cons, beq_eq_false_iff_ne.2 hj, ih, hj, false_and, if_false]
    · rw [if_neg h]
      by_cases hj : j = k'
      · subst hj; simp [List.lookup_cons, h]
      · have hk : (k == k') = false := by simpa using fun e => h e.symm
        simp only [List.lookup_cons, beq_eq_false_iff_ne.2 hj, hk, ih]

theorem lookup_put (d : Ports) (k : Key) (v : Key × Conf) (j : Key) :
    (put d k v).lookup j = if j = k then some v else d.lookup j := by
  unfold put
  split
  · rename_i h
    rw [lookup_map]
    by_cases hj : j = k <;> simp [hj, h]
  · rename_i h
    have hn : d.lookup k = none := by
      cases hx : d.lookup k with
      | none => rfl
      | some v => rw [hx] at h; simp at h
    rw [List.lookup_append]
    by_cases hj : j = k
    · subst hj; simp [hn, List.lookup_cons]
    · simp [hj, List.lookup_cons, beq_eq_false_iff_ne.2 hj]

/-- What a range makes of a port that was so before. -/
def upd (r : Conf) (n : Nat) : Option (Key × Conf) → Key × Conf
  | some (k, c) => (k, setDefaults c r)
  | none => (.num n, r)

theorem lookup_addPort (r : Conf) (d : Ports) (n : Nat) (j : Key) :
    (addPort r d n).lookup j = if j = .num n then some (upd r n (d.lookup (.num n))) else d.lookup j := by
  unfold addPort
  cases h : d.lookup (.num n) with
  | none => simp only [lookup_put]; rfl
  | some kc => obtain ⟨k, c⟩ := kc; simp only [lookup_put]; rfl

theorem lookup_addAll (r : Conf) (ns : List Nat) (hn : ns.Nodup) (d : Ports) :
    (∀ n ∈ ns, (ns.foldl (addPort r) d).lookup (.num n) = some (upd r n (d.lookup (.num n)))) ∧
    ∀ j, (∀ n ∈ ns, j ≠ .num n) → (ns.foldl (addPort r) d).lookup j = d.lookup j := by
  induction ns generalizing d with
  | nil => simp
  | cons n ns ih =>
    rw [List.nodup_cons] at hn
    obtain ⟨h1, h2⟩ := ih hn.2 (addPort r d n)
    rw [List.foldl_cons]
    constructor
    · intro m hm
      rcases List.mem_cons.1 hm with rfl | hm
      · rw [h2 _ (fun k hk e => hn.1 (by simp only [Key.num.injEq] at e; rw [e]; exact hk)),
          lookup_addPort, if_pos rfl]
      · rw [h1 m hm, lookup_addPort, if_neg]
        simp only [Key.num.injEq]
        exact fun e => hn.1 (e ▸ hm)
    · intro j hj
      rw [h2 j (fun n hn => hj n (.tail _ hn)), lookup_addPort, if_neg (hj n (.head _))]

/-! ## Ranges -/

theorem addRange_some {st st' : List Nat × Ports} {rc : Text × Conf}
    (h : addRange st rc = some st') :
    ∃ s, parseRange rc.1 = some s ∧ (∀ n ∈ s, n ∉ st.1) ∧ st'.1 = st.1 ++ s ∧
      (∀ n ∈ s, st'.2.lookup (.num n) = some (upd ⟨none, rc.2.attrs⟩ n (st.2.lookup (.num n)))) ∧
      ∀ j, (∀ n ∈ s, j ≠ .num n) → st'.2.lookup j = st.2.lookup j := by
  unfold addRange at h
  cases hp : parseRange rc.1 with
  | none => rw [hp] at h; simp at h
  | some s =>
    rw [hp] at h
    simp only at h
    split at h
    · simp at h
    · rename_i hno
      simp only [Option.some.injEq] at h
      subst h
      obtain ⟨h1, h2⟩ := lookup_addAll ⟨none, rc.2.attrs⟩ s.dedup (List.nodup_dedup s) st.2
      refine ⟨s, rfl, ?_, rfl, fun n hn => h1 n (List.mem_dedup.2 hn),
        fun j hj => h2 j (fun n hn => hj n (List.mem_dedup.1 hn))⟩
      intro n hn hc
      exact hno (List.any_eq_true.2 ⟨n, hn, by simpa using hc⟩)

theorem ranges_some {rs : List (Text × Conf)} : ∀ {st st' : List Nat × Ports},
    rs.foldlM addRange st = some st' →
    (∀ rc ∈ rs, ∀ n, Covers rc n → n ∉ st.1 ∧
      st'.2.lookup (.num n) = some (upd ⟨none, rc.2.attrs⟩ n (st.2.lookup (.num n)))) ∧
    (∀ j, (∀ rc ∈ rs, ∀ n, Covers rc n → j ≠ .num n) → st'.2.lookup j = st.2.lookup j) ∧
    (∀ rc ∈ rs, (parseRange rc.1).isSome) ∧
    rs.Pairwise (fun a b => ∀ n, Covers a n → ¬ Covers b n) := by
  induction rs with
  | nil => intro st st' h; simp at h; subst h; simp
  | cons rc rs ih =>
    intro st st' h
    rw [List.foldlM_cons] at h
    cases hx : addRange st rc with
    | none => rw [hx] at h; simp at h
    | some st1 =>
      rw [hx] at h
      obtain ⟨s, hp, hno, hall, hin, hout⟩ := addRange_some hx
      obtain ⟨h1, h2, h3, h4⟩ := ih (st := st1) (st' := st') h
      have hdis : ∀ n, Covers rc n → ∀ rc' ∈ rs, ¬ Covers rc' n := by
        rintro n ⟨s', hs', hn⟩ rc' hrc' hc
        rw [hp] at hs'; cases hs'
        exact (h1 rc' hrc' n hc).1 (by rw [hall]; exact List.mem_append_right _ hn)
      refine ⟨?_, ?_, ?_, ?_⟩
      · intro rc' hrc' n hc
        rcases List.mem_cons.1 hrc' with rfl | hr
        · obtain ⟨s', hs', hn⟩ := hc
          rw [hp] at hs'; cases hs'
          refine ⟨hno n hn, ?_⟩
          rw [h2 (.num n), hin n hn]
          intro rc'' hr'' m hm e
          simp only [Key.num.injEq] at e
          subst e
          exact hdis n ⟨_, hp, hn⟩ rc'' hr'' hm
        · obtain ⟨h5, h6⟩ := h1 rc' hr n hc
          rw [hall] at h5
          refine ⟨fun h => h5 (List.mem_append_left _ h), ?_⟩
          rw [h6, hout (.num n)]
          intro m hm e
          simp only [Key.num.injEq] at e
          subst e
          exact hdis n ⟨_, hp, hm⟩ rc' hr hc
      · intro j hj
        rw [h2 j (fun rc' hr => hj rc' (.tail _ hr)), hout j]
        exact fun n hn => hj rc (.head _) n ⟨s, hp, hn⟩
      · intro rc' hr
        rcases List.mem_cons.1 hr with rfl | hr
        · rw [hp]; rfl
        · exact h3 rc' hr
      · rw [List.pairwise_cons]
        exact ⟨fun rc' hr n hc => hdis n hc rc' hr, h4⟩

theorem ranges_accept {rs : List (Text × Conf)} : ∀ {st : List Nat × Ports},
    (∀ rc ∈ rs, (parseRange rc.1).isSome) →
    rs.Pairwise (fun a b => ∀ n, Covers a n → ¬ Covers b n) →
    (∀ rc ∈ rs, ∀ n, Covers rc n → n ∉ st.1) → (rs.foldlM addRange st).isSome := by
  induction rs with
  | nil => intro st _ _ _; simp
  | cons rc rs ih =>
    intro st h1 h2 h3
    rw [List.foldlM_cons]
    obtain ⟨s, hp⟩ := Option.isSome_iff_exists.1 (h1 rc (.head _))
    rw [List.pairwise_cons] at h2
    have hno : ¬ (s.any (fun n => st.1.contains n) = true) := by
      rw [List.any_eq_true]
      rintro ⟨n, hn, hc⟩
      exact h3 rc (.head _) n ⟨s, hp, hn⟩ (by simpa using hc)
    have hx : addRange st rc = some (st.1 ++ s,
        s.dedup.foldl (addPort ⟨none, rc.2.attrs⟩) st.2) := by
      unfold addRange
      rw [hp]
      simp only
      rw [if_neg hno]
    rw [hx]
    refine ih (fun rc h => h1 rc (.tail _ h)) h2.2 ?_
    intro rc' hr n hc hm
    rcases List.mem_append.1 hm with hm | hm
    · exact h3 rc' (.tail _ hr) n hc hm
    · exact h2.1 rc' hr n ⟨s, hp, hm⟩ hc

/-! ## Interfaces -/

theorem lookup_mapPorts_aux (ifs : List (Key × Conf)) (hn : (ifs.map numOf).Nodup) (d : Ports) :
    (∀ kc ∈ ifs, (ifs.foldl (fun d kc => put d (kc.2.number.getD kc.1) (kc.1, kc.2)) d).lookup
      (numOf kc) = some kc) ∧
    ∀ j, j ∉ ifs.map numOf →
      (ifs.foldl (fun d kc => put d (kc.2.number.getD kc.1) (kc.1, kc.2)) d).lookup j = d.lookup j := by
  induction ifs generalizing d with
  | nil => simp
  | cons kc ifs ih =>
    rw [List.map_cons, List.nodup_cons] at hn
    rw [List.foldl_cons]
    obtain ⟨h1, h2⟩ := ih hn.2 (put d (kc.2.number.getD kc.1) (kc.1, kc.2))
    constructor
    · intro kc' h
      rcases List.mem_cons.1 h with rfl | h
      · rw [h2 _ hn.1, lookup_put]; exact if_pos rfl
      · exact h1 kc' h
    · intro j hj
      rw [List.map_cons, List.mem_cons, not_or] at hj
      rw [h2 j hj.2, lookup_put]; exact if_neg hj.1

theorem lookup_mapPorts {ifs : List (Key × Conf)} (hn : (ifs.map numOf).Nodup) {kc : Key × Conf}
    (h : kc ∈ ifs) : (mapPorts ifs).lookup (numOf kc) = some kc :=
  (lookup_mapPorts_aux ifs hn []).1 kc h

theorem lookup_mapPorts_none {ifs : List (Key × Conf)} (hn : (ifs.map numOf).Nodup) {j : Key}
    (h : j ∉ ifs.map numOf) : (mapPorts ifs).lookup j = none :=
  (lookup_mapPorts_aux ifs hn []).2 j h

/-! ## Settings -/

theorem get_setDefault (c : Conf) (av : Nat × Nat) (a : Nat) :
    (setDefault c av).get a = (c.get a).or (if a = av.1 then some av.2 else none) := by
  obtain ⟨x, y⟩ := av
  unfold setDefault
  split
  · rename_i h
    simp only at h ⊢
    by_cases ha : a = x
    · subst ha
      cases hc : c.get a with
      | none => rw [hc] at h; simp at h
      | some v => simp
    · simp [ha]
  · unfold Conf.get
    rw [List.lookup_append]
    congr 1
    by_cases ha : a = x
    · subst ha; simp [List.lookup_cons]
    · simp [List.lookup_cons, beq_eq_false_iff_ne.2 ha, ha]

theorem get_setDefaults (c r : Conf) (a : Nat) : (setDefaults c r).get a = (c.get a).or (r.get a) := by
  obtain ⟨rn, ra⟩ := r
  unfold setDefaults
  simp only
  induction ra generalizing c with
  | nil => simp [Conf.get]
  | cons av ra ih =>
    obtain ⟨x, y⟩ := av
    rw [List.foldl_cons, ih, get_setDefault]
    by_cases ha : a = x
    · subst ha
      cases c.get a <;> simp [Conf.get, List.lookup_cons]
    · simp [ha, Conf.get, List.lookup_cons, beq_eq_false_iff_ne.2 ha]

theorem number_setDefaults (c r : Conf) : (setDefaults c r).number = c.number := by
  unfold setDefaults
  generalize r.attrs = ra
  induction ra generalizing c with
  | nil => rfl
  | cons av ra ih =>
    rw [List.foldl_cons, ih]
    unfold setDefault
    split <;> rfl

/-! ## The properties -/

theorem addPorts_some {ifs : List (Key × Conf)} {ranges : List (Text × Conf)} {d : Ports}
    (h : addPorts ifs ranges = some d) :
    ∃ all, ranges.foldlM addRange ([], mapPorts ifs) = some (all, d) := by
  unfold addPorts at h
  rw [Option.map_eq_some_iff] at h
  obtain ⟨⟨all, d'⟩, h1, h2⟩ := h
  simp only at h2
  subst h2
  exact ⟨all, h1⟩

/-- C35: the ports configured are exactly the interfaces and the ports of the ranges. -/
theorem ports_exact (ifs : List (Key × Conf)) (ranges : List (Text × Conf)) (d : Ports)
    (hn : (ifs.map numOf).Nodup) (h : addPorts ifs ranges = some d) (k : Key) :
    (d.lookup k).isSome = true ↔
      k ∈ ifs.map numOf ∨ ∃ n, k = .num n ∧ ∃ rc ∈ ranges, Covers rc n := by
  obtain ⟨all, h⟩ := addPorts_some h
  obtain ⟨h1, h2, -, -⟩ := ranges_some h
  by_cases hr : ∃ n, k = .num n ∧ ∃ rc ∈ ranges, Covers rc n
  · obtain ⟨n, rfl, rc, hrc, hc⟩ := hr
    rw [(h1 rc hrc n hc).2]
    exact ⟨fun _ => .inr ⟨n, rfl, rc, hrc, hc⟩, fun _ => rfl⟩
  · rw [h2 k (fun rc hrc n hc e => hr ⟨n, e, rc, hrc, hc⟩)]
    constructor
    · intro hs
      left
      by_contra hc
      rw [lookup_mapPorts_none hn hc] at hs
      simp at hs
    · rintro (hs | hs)
      · obtain ⟨kc, hkc, rfl⟩ := List.mem_map.1 hs
        rw [lookup_mapPorts hn hkc]; rfl
      · exact absurd hs hr

/-- C35: an interface that is also in a range keeps its own settings; the range's settings count only
where it has none. -/
theorem interface_overrides (ifs : List (Key × Conf)) (ranges : List (Text × Conf)) (d : Ports)
    (hn : (ifs.map numOf).Nodup) (h : addPorts ifs ranges = some d) (key : Key) (c : Conf)
    (hi : (key, c) ∈ ifs) (n : Nat) (hnum : numOf (key, c) = .num n) (rc : Text × Conf)
    (hrc : rc ∈ ranges) (hc : Covers rc n) :
    ∃ c', d.lookup (.num n) = some (key, c') ∧ c'.number = c.number ∧
      ∀ a, c'.get a = (c.get a).or (rc.2.get a) := by
  obtain ⟨all, h⟩ := addPorts_some h
  obtain ⟨h1, -, -, -⟩ := ranges_some h
  refine ⟨setDefaults c ⟨none, rc.2.attrs⟩, ?_, number_setDefaults _ _, fun a => ?_⟩
  · rw [(h1 rc hrc n hc).2, ← hnum, lookup_mapPorts hn hi]; rfl
  · rw [get_setDefaults]; rfl

/-- C35: an interface that is in no range has its own settings and no others. -/
theorem interface_alone (ifs : List (Key × Conf)) (ranges : List (Text × Conf)) (d : Ports)
    (hn : (ifs.map numOf).Nodup) (h : addPorts ifs ranges = some d) (kc : Key × Conf)
    (hi : kc ∈ ifs) (hno : ∀ rc ∈ ranges, ∀ n, Covers rc n → numOf kc ≠ .num n) :
    d.lookup (numOf kc) = some kc := by
  obtain ⟨all, h⟩ := addPorts_some h
  obtain ⟨-, h2, -, -⟩ := ranges_some h
  rw [h2 _ hno, lookup_mapPorts hn hi]

/-- C35: a port of a range that is no interface of its own has the range's settings, and its own
number whatever number the range's section gives. -/
theorem range_port_settings (ifs : List (Key × Conf)) (ranges : List (Text × Conf)) (d : Ports)
    (hn : (ifs.map numOf).Nodup) (h : addPorts ifs ranges = some d) (n : Nat)
    (hi : .num n ∉ ifs.map numOf) (rc : Text × Conf) (hrc : rc ∈ ranges) (hc : Covers rc n) :
    d.lookup (.num n) = some (.num n, ⟨none, rc.2.attrs⟩) := by
  obtain ⟨all, h⟩ := addPorts_some h
  obtain ⟨h1, -, -, -⟩ := ranges_some h
  rw [(h1 rc hrc n hc).2, lookup_mapPorts_none hn hi]; rfl

/-- C35: the configuration is rejected exactly if one of the range expressions is, or if two of them
overlap. -/
theorem ranges_rejected_iff (ifs : List (Key × Conf)) (ranges : List (Text × Conf)) :
    addPorts ifs ranges = none ↔ (∃ rc ∈ ranges, parseRange rc.1 = none) ∨ Overlap ranges := by
  constructor
  · intro h
    by_contra hc
    rw [not_or] at hc
    obtain ⟨h1, h2⟩ := hc
    have := ranges_accept (rs := ranges) (st := ([], mapPorts ifs))
      (fun rc hrc => by
        rw [Option.isSome_iff_ne_none]; exact fun e => h1 ⟨rc, hrc, e⟩)
      (by unfold Overlap at h2; exact not_not.1 h2) (by simp)
    unfold addPorts at h
    rw [Option.map_eq_none_iff] at h
    rw [h] at this; simp at this
  · intro h
    cases hx : addPorts ifs ranges with
    | none => rfl
    | some d =>
      obtain ⟨all, h'⟩ := addPorts_some hx
      obtain ⟨-, -, h3, h4⟩ := ranges_some h'
      rcases h with ⟨rc, hrc, hp⟩ | h
      · have := h3 rc hrc
        rw [hp] at this; simp at this
      · exact absurd h4 h

end Faucet.Ranges
