import Verif.Pipeline.Model
import Mathlib.Data.List.Nodup

/-!
# Each table only sends packets to tables with a larger id

For every configuration: the tables that are set up, their ids, and the targets of every goto.
-/

namespace Faucet.Pipeline
open Faucet.OF

/-! ## Tables and ids -/

/-- Position of a table on the way of a packet: port ACLs, VLANs, coprocessor, VLAN ACLs, classification, sources,
routing, virtual addresses, destinations, egress ACLs, egress, flooding. -/
def rank : Tbl → Nat
  | .portAcl => 0 | .vlan => 1 | .copro => 2 | .vlanAcl => 3 | .classification => 4 | .ethSrc => 5 | .ipv4Fib => 6
  | .ipv6Fib => 7 | .vip => 8 | .hairpin => 9 | .ethDst => 10 | .egressAcl => 11 | .egress => 12 | .flood => 13

theorem rank_inj {a b : Tbl} (h : rank a = rank b) : a = b := by cases a <;> cases b <;> simp_all [rank]

theorem standard_sorted : standard.Pairwise (fun a b => rank a.name < rank b.name) := by decide

theorem mem_standard (t : Tbl) : ∃ x ∈ standard, x.name = t := by cases t <;> decide

theorem canonical_sorted (c : Conf) : (canonical c).Pairwise (fun a b => rank a.name < rank b.name) :=
  standard_sorted.filter _

theorem mem_numberFrom {c : Conf} {t : TableConfig} : ∀ {l : List TableConfig} {n : Nat}, t ∈ numberFrom c n l →
    ∃ x ∈ l, ∃ k, n ≤ k ∧ k < n + l.length ∧ t = finish c (numbered c x k)
  | [], _, h => by simp [numberFrom] at h
  | x :: xs, n, h => by
    rcases List.mem_cons.1 h with h | h
    · exact ⟨x, List.mem_cons_self, n, Nat.le_refl _, by simp, h⟩
    · obtain ⟨y, hy, k, h1, h2, e⟩ := mem_numberFrom h
      refine ⟨y, List.mem_cons_of_mem _ hy, k, by omega, ?_, e⟩
      simp only [List.length_cons]
      omega

theorem numberFrom_mem {c : Conf} {x : TableConfig} : ∀ {l : List TableConfig} {n : Nat}, x ∈ l →
    ∃ k, finish c (numbered c x k) ∈ numberFrom c n l
  | y :: ys, n, h => by
    rcases List.mem_cons.1 h with h | h
    · exact ⟨n, by rw [h]; exact List.mem_cons_self⟩
    · obtain ⟨k, hk⟩ := numberFrom_mem (n := n + 1) h
      exact ⟨k, List.mem_cons_of_mem _ hk⟩

theorem numberFrom_sorted (c : Conf) (hs : c.static = false) : ∀ (l : List TableConfig) (n : Nat),
    l.Pairwise (fun a b => rank a.name < rank b.name) →
    (numberFrom c n l).Pairwise (fun a b => rank a.name < rank b.name ∧ a.id < b.id)
  | [], _, _ => List.Pairwise.nil
  | x :: xs, n, h => by
    refine List.pairwise_cons.2 ⟨?_, numberFrom_sorted c hs xs (n + 1) (List.pairwise_cons.1 h).2⟩
    intro b hb
    obtain ⟨y, hy, k, h1, _, rfl⟩ := mem_numberFrom hb
    refine ⟨(List.pairwise_cons.1 h).1 y hy, ?_⟩
    show (if c.static then x.id else n) < (if c.static then y.id else k)
    simp only [hs, Bool.false_eq_true, if_false]
    omega

theorem numberFrom_names (c : Conf) : ∀ (l : List TableConfig) (n : Nat),
    (numberFrom c n l).map (·.name) = l.map (·.name)
  | [], _ => rfl
  | x :: xs, n => by
    simp only [numberFrom, List.map_cons, numberFrom_names c xs (n + 1)]
    rfl

theorem numberFrom_ids (c : Conf) (hs : c.static = false) : ∀ (l : List TableConfig) (n : Nat),
    (numberFrom c n l).map (·.id) = List.range' n l.length
  | [], _ => rfl
  | x :: xs, n => by
    have e : (finish c (numbered c x n)).id = n := by simp [finish, numbered, hs]
    simp only [numberFrom, List.map_cons, numberFrom_ids c hs xs (n + 1), e, List.length_cons, List.range'_succ]

theorem mem_tables {c : Conf} {t : TableConfig} (h : t ∈ tables c) :
    included c t.name = true ∧ ∃ x ∈ standard, x.name = t.name ∧ t.miss = missOf c x ∧ t.next = nextOf c x ∧
      (c.static = true → t.id = x.id) := by
  obtain ⟨x, hx, k, _, _, rfl⟩ := mem_numberFrom h
  obtain ⟨h1, h2⟩ := List.mem_filter.1 hx
  refine ⟨h2, x, h1, rfl, rfl, rfl, ?_⟩
  intro hs
  simp [finish, numbered, hs]

/-- **The tables that exist** are those the configuration calls for, each once. -/
theorem table_some_iff (c : Conf) (n : Tbl) : (table c n).isSome ↔ included c n = true := by
  unfold table
  rw [List.find?_isSome]
  constructor
  · rintro ⟨t, ht, e⟩
    rw [← beq_iff_eq.1 e]
    exact (mem_tables ht).1
  · intro h
    obtain ⟨x, hx, e⟩ := mem_standard n
    obtain ⟨k, hk⟩ := numberFrom_mem (c := c) (n := 0) (l := canonical c) (x := x)
      (List.mem_filter.2 ⟨hx, by rw [e]; exact h⟩)
    exact ⟨_, hk, beq_iff_eq.2 e⟩

theorem table_mem {c : Conf} {n : Tbl} {t : TableConfig} (h : table c n = some t) : t ∈ tables c ∧ t.name = n :=
  ⟨List.mem_of_find?_eq_some h, by simpa using List.find?_some h⟩

theorem names_inj {c : Conf} {x y : TableConfig} (hx : x ∈ tables c) (hy : y ∈ tables c) (e : x.name = y.name) : x = y := by
  have nd : ((tables c).map (·.name)).Nodup := by
    unfold tables
    rw [numberFrom_names]
    unfold canonical
    exact List.Nodup.sublist (List.Sublist.map _ List.filter_sublist) (by decide : (standard.map (·.name)).Nodup)
  exact List.inj_on_of_nodup_map nd hx hy e

theorem exists_table {c : Conf} {n : Tbl} (h : included c n = true) : ∃ t, table c n = some t :=
  Option.isSome_iff_exists.1 ((table_some_iff c n).2 h)

/-- The static ids follow the same order, except that `copro` and `vlan_acl` share one. -/
theorem static_order {x y : TableConfig} (hx : x ∈ standard) (hy : y ∈ standard) (h : rank x.name < rank y.name)
    (n : ¬ (x.name = .copro ∧ y.name = .vlanAcl)) : x.id < y.id := by
  revert n h
  revert y
  revert x
  decide

/-- **Ids follow the way of a packet**, for every configuration: of two tables that exist, the earlier has the smaller
id. With static ids (NoviFlow) the coprocessor table and the VLAN ACL table are an exception. -/
theorem id_lt {c : Conf} {a b : Tbl} {s d : TableConfig} (hs : table c a = some s) (hd : table c b = some d)
    (h : rank a < rank b) (n : c.static = true → ¬ (a = .copro ∧ b = .vlanAcl)) : s.id < d.id := by
  obtain ⟨ms, es⟩ := table_mem hs
  obtain ⟨md, ed⟩ := table_mem hd
  cases hst : c.static with
  | false =>
    have hp := numberFrom_sorted c hst (canonical c) 0 (canonical_sorted c)
    have hsd : s ≠ d := fun e => by subst e; rw [← es, ← ed] at h; omega
    have := (List.Pairwise.forall_of_forall_of_flip (l := tables c)
      (R := fun x y => rank x.name < rank y.name → x.id < y.id)
      (by intro x _ hx; omega)
      (hp.imp (fun {x y} q _ => q.2))
      (hp.imp (fun {x y} q r => by
        have := q.1
        exact absurd r (by omega))))
    exact this ms md (by rw [es, ed]; exact h)
  | true =>
    obtain ⟨_, x, hx, ex, _, _, ix⟩ := mem_tables ms
    obtain ⟨_, y, hy, ey, _, _, iy⟩ := mem_tables md
    rw [ix hst, iy hst]
    exact static_order hx hy (by rw [ex, ey, es, ed]; exact h) (by rw [ex, ey, es, ed]; exact n hst)

/-- **No two tables share an id**, unless ids are static and there are both a coprocessor and a VLAN ACL. -/
theorem id_unique {c : Conf} {a b : Tbl} {s d : TableConfig} (hs : table c a = some s) (hd : table c b = some d)
    (n : c.static = true → ¬ (c.copro = true ∧ c.vlanAcls = true)) (e : s.id = d.id) : a = b := by
  have ia := (table_some_iff c a).1 (by rw [hs]; rfl)
  have ib := (table_some_iff c b).1 (by rw [hd]; rfl)
  rcases Nat.lt_trichotomy (rank a) (rank b) with h | h | h
  · have := id_lt hs hd h (fun q ⟨e1, e2⟩ => n q (by subst e1; subst e2; exact ⟨ia, ib⟩))
    omega
  · exact rank_inj h
  · have := id_lt hd hs h (fun q ⟨e1, e2⟩ => n q (by subst e1; subst e2; exact ⟨ib, ia⟩))
    omega

/-- **Ids are 0, 1, 2, ...** when the hardware does not fix them. -/
theorem ids_consecutive (c : Conf) (hs : c.static = false) : (tables c).map (·.id) = List.range (tables c).length := by
  have h := numberFrom_ids c hs (canonical c) 0
  have l : (tables c).length = (canonical c).length := by
    have := congrArg List.length h
    simp only [List.length_map, List.length_range'] at this
    exact this
  rw [List.range_eq_range', l]
  exact h

/-- **Packets start in the right table**: table 0 is the port ACL table if there is one and the VLAN table otherwise. -/
theorem first_table (c : Conf) : ((tables c).head?).map (fun t => (t.name, t.id)) =
    some (if included c .portAcl then .portAcl else .vlan, 0) := by
  unfold tables canonical standard
  cases hp : included c .portAcl with
  | true =>
    rw [List.filter_cons_of_pos (by simpa using hp)]
    simp [numberFrom, finish, numbered]
  | false =>
    have hs : c.static = false := by
      simp only [included, Bool.or_eq_false_iff] at hp
      exact hp.2
    rw [List.filter_cons_of_neg (by simp [hp]), List.filter_cons_of_pos (by simp [included])]
    simp [numberFrom, finish, numbered, hs]

/-! ## Gotos -/

/-- What a goto made for rules of table `src` must be: an instruction to a table that exists and has a larger id. -/
def Good (c : Conf) (src : Tbl) (i : Option Inst) : Prop :=
  ∃ s ∈ tables c, s.name = src ∧ ∃ d ∈ tables c, i = some (.goto d.id) ∧ s.id < d.id

theorem gotoThis_good {c : Conf} {a b : Tbl} (ha : included c a = true) (hb : included c b = true) (h : rank a < rank b)
    (n : ¬ (a = .copro ∧ b = .vlanAcl)) : Good c a (gotoThis c b) := by
  obtain ⟨s, hs⟩ := exists_table ha
  obtain ⟨d, hd⟩ := exists_table hb
  exact ⟨s, (table_mem hs).1, (table_mem hs).2, d, (table_mem hd).1, by simp [gotoThis, hd], id_lt hs hd h (fun _ => n)⟩

theorem standard_inj {x y : TableConfig} (hx : x ∈ standard) (hy : y ∈ standard) (h : x.name = y.name) : x = y := by
  revert h
  revert y
  revert x
  decide

theorem goto_eq {c : Conf} {a b : Tbl} {x : TableConfig} (ha : included c a = true) (hb : included c b = true)
    (hx : x ∈ standard) (ex : x.name = a) (h : b ∈ x.next) : goto c a b = gotoThis c b := by
  obtain ⟨s, hs⟩ := exists_table ha
  obtain ⟨d, hd⟩ := exists_table hb
  obtain ⟨_, y, hy, ey, _, ny, _⟩ := mem_tables (table_mem hs).1
  have exy : y = x := standard_inj hy hx (by rw [ey, (table_mem hs).2, ex])
  have hm : s.next.contains b = true := by
    rw [ny, List.contains_iff_mem, exy]
    exact List.mem_filter.2 ⟨h, hb⟩
  have e1 : goto c a b = if s.next.contains b then some (.goto d.id) else none := by simp only [goto, hs, hd, Option.bind_some]
  rw [e1, if_pos hm]
  simp [gotoThis, hd]

theorem goto_good {c : Conf} {a b : Tbl} (ha : included c a = true) (hb : included c b = true)
    (h : ∃ x ∈ standard, x.name = a ∧ b ∈ x.next) (r : rank a < rank b) (n : ¬ (a = .copro ∧ b = .vlanAcl)) :
    Good c a (goto c a b) := by
  obtain ⟨x, hx, ex, hm⟩ := h
  rw [goto_eq ha hb hx ex hm]
  exact gotoThis_good ha hb r n

theorem class_included (c : Conf) : included c (classTable c) = true := by
  unfold classTable
  by_cases h : c.classification = true
  · rw [if_pos h]; exact h
  · rw [if_neg h]; rfl

theorem out_included (c : Conf) : included c (outTable c) = true := by
  unfold outTable
  by_cases h : c.hairpin = true
  · rw [if_pos h]; exact h
  · rw [if_neg h]; rfl

theorem outputTo_included {c : Conf} (h : c.egressPipeline = true) : included c (outputTo c) = true := by
  unfold outputTo
  by_cases h' : included c .egressAcl = true
  · rw [if_pos h']; exact h'
  · rw [if_neg h']; exact h

theorem class_cases (c : Conf) : classTable c = .classification ∨ classTable c = .ethSrc := by
  unfold classTable
  by_cases h : c.classification = true
  · exact Or.inl (if_pos h)
  · exact Or.inr (if_neg h)

theorem out_cases (c : Conf) : outTable c = .hairpin ∨ outTable c = .ethDst := by
  unfold outTable
  by_cases h : c.hairpin = true
  · exact Or.inl (if_pos h)
  · exact Or.inr (if_neg h)

theorem outputTo_cases (c : Conf) : outputTo c = .egressAcl ∨ outputTo c = .egress := by
  unfold outputTo
  by_cases h : included c .egressAcl = true
  · exact Or.inl (if_pos h)
  · exact Or.inr (if_neg h)

theorem miss_good {c : Conf} {t m : Tbl} (has : included c t = true)
    (is : (table c t).bind (fun x => x.miss) = some m) : Good c t (gotoMiss c t m) := by
  obtain ⟨s, hs⟩ := exists_table has
  rw [hs] at is
  have is : s.miss = some m := is
  obtain ⟨_, x, hx, ex, mx, _, _⟩ := mem_tables (table_mem hs).1
  have hin : included c m = true ∧ rank t < rank m ∧ ¬ (t = .copro ∧ m = .vlanAcl) := by
    rw [(table_mem hs).2] at ex
    rw [mx] at is
    subst ex
    unfold missOf at is
    by_cases q : x.name = .ethDst ∧ included c .egressAcl = true
    · rw [if_pos q] at is
      cases is
      rw [q.1]
      exact ⟨q.2, by decide, by decide⟩
    · rw [if_neg q] at is
      have : ∀ x ∈ standard, ∀ m, x.miss = some m →
          (m = .ethDst ∨ m = .ethSrc ∨ m = .flood) ∧ rank x.name < rank m := by decide
      obtain ⟨h1, h2⟩ := this x hx m is
      refine ⟨?_, h2, ?_⟩
      · rcases h1 with h1 | h1 | h1 <;> rw [h1] <;> rfl
      · rintro ⟨_, e⟩
        rw [e] at h1
        simp at h1
  obtain ⟨d, hd⟩ := exists_table hin.1
  have e : gotoMiss c t m = gotoThis c m := by simp [gotoMiss, gotoThis, hs, hd, is]
  rw [e]
  exact gotoThis_good has hin.1 hin.2.1 hin.2.2

/-- **Every goto goes forward**: whatever optional tables the configuration calls for, and whether or not ids are static,
each place that makes a goto gets an instruction (no assertion fails and no table is missing) to a table that exists and
whose id is larger than that of the table the rule is in. -/
theorem site_forward {c : Conf} {t : Tbl} {i : Option Inst} (h : Site c t i) : Good c t i := by
  cases h with
  | miss t m has is => exact miss_good has is
  | portVlanAcl has => exact goto_good rfl has (by decide) (by decide) (by decide)
  | portVlan =>
    have hi := class_included c
    rcases class_cases c with e | e <;> rw [e] at hi ⊢ <;>
      exact goto_good rfl hi (by decide) (by decide) (by decide)
  | copro has => exact goto_good rfl has (by decide) (by decide) (by decide)
  | coproSrc has =>
    have hi := out_included c
    rcases out_cases c with e | e <;> rw [e] at hi ⊢ <;>
      exact goto_good rfl hi (by decide) (by decide) (by decide)
  | ethSrc =>
    have hi := out_included c
    rcases out_cases c with e | e <;> rw [e] at hi ⊢ <;>
      exact goto_good rfl hi (by decide) (by decide) (by decide)
  | stackPort =>
    have hi := class_included c
    rcases class_cases c with e | e <;> rw [e] at hi ⊢ <;>
      exact gotoThis_good rfl hi (by decide) (by decide)
  | stackFlood =>
    have hi := class_included c
    rcases class_cases c with e | e <;> rw [e] at hi ⊢ <;>
      exact gotoThis_good hi rfl (by decide) (by decide)
  | known has =>
    have hi := outputTo_included has
    rcases outputTo_cases c with e | e <;> rw [e] at hi ⊢ <;>
      exact gotoThis_good rfl hi (by decide) (by decide)
  | hairpin has hp =>
    have hi := outputTo_included has
    rcases outputTo_cases c with e | e <;> rw [e] at hi ⊢ <;>
      exact gotoThis_good hp hi (by decide) (by decide)
  | toFib4 has =>
    have hi := class_included c
    rcases class_cases c with e | e <;> rw [e] at hi ⊢ <;>
      exact gotoThis_good hi has (by decide) (by decide)
  | toFib6 has =>
    have hi := class_included c
    rcases class_cases c with e | e <;> rw [e] at hi ⊢ <;>
      exact gotoThis_good hi has (by decide) (by decide)
  | toVip has =>
    have hi := class_included c
    rcases class_cases c with e | e <;> rw [e] at hi ⊢ <;>
      exact gotoThis_good hi has (by decide) (by decide)
  | fib4Vip has => exact goto_good has (by simp [included, has]) (by decide) (by decide) (by decide)
  | fib6Vip has => exact goto_good has (by simp [included, has]) (by decide) (by decide) (by decide)
  | fib4Out has =>
    have hi := out_included c
    rcases out_cases c with e | e <;> rw [e] at hi ⊢ <;>
      exact gotoThis_good has hi (by decide) (by decide)
  | fib6Out has =>
    have hi := out_included c
    rcases out_cases c with e | e <;> rw [e] at hi ⊢ <;>
      exact gotoThis_good has hi (by decide) (by decide)
  | vipOut has =>
    have hi := out_included c
    rcases out_cases c with e | e <;> rw [e] at hi ⊢ <;>
      exact gotoThis_good has hi (by decide) (by decide)
  | aclVlan has => exact gotoThis_good has rfl (by decide) (by decide)
  | aclForce has =>
    have hi := out_included c
    rcases out_cases c with e | e <;> rw [e] at hi ⊢ <;>
      exact gotoThis_good has hi (by decide) (by decide)
  | aclTunnel has => exact gotoThis_good has rfl (by decide) (by decide)
  | vlanAclOn has =>
    have hi := class_included c
    rcases class_cases c with e | e <;> rw [e] at hi ⊢ <;>
      exact gotoThis_good has hi (by decide) (by decide)
  | vlanAclForce has =>
    have hi := out_included c
    rcases out_cases c with e | e <;> rw [e] at hi ⊢ <;>
      exact gotoThis_good has hi (by decide) (by decide)
  | egressAcl has =>
    exact gotoThis_good has (by simp [included, Conf.egressPipeline, has]) (by decide) (by decide)

/-! ## What the tables announce

A switch that takes table features messages only has to accept gotos to next tables that were announced
(`faucet/tfm_pipeline.py` 120-150). -/

/-- The goto is announced: as next table, or as next table on a miss. -/
def Declared (c : Conf) (src dst : Tbl) : Prop :=
  ∃ s ∈ tables c, s.name = src ∧ (dst ∈ s.next ∨ s.miss = some dst)

/-- The instruction goes to a table that is announced. -/
def Announced (c : Conf) (src : Tbl) (i : Option Inst) : Prop :=
  ∃ d ∈ tables c, i = some (.goto d.id) ∧ Declared c src d.name

theorem this_announced {c : Conf} {a b : Tbl} (ha : included c a = true) (hb : included c b = true)
    (h : ∃ x ∈ standard, x.name = a ∧ b ∈ x.next) : Announced c a (gotoThis c b) := by
  obtain ⟨x, hx, ex, hm⟩ := h
  obtain ⟨s, hs⟩ := exists_table ha
  obtain ⟨d, hd⟩ := exists_table hb
  obtain ⟨_, y, hy, ey, _, ny, _⟩ := mem_tables (table_mem hs).1
  have exy : y = x := standard_inj hy hx (by rw [ey, (table_mem hs).2, ex])
  refine ⟨d, (table_mem hd).1, by simp [gotoThis, hd], s, (table_mem hs).1, (table_mem hs).2, Or.inl ?_⟩
  rw [(table_mem hd).2, ny, exy]
  exact List.mem_filter.2 ⟨hm, hb⟩

theorem goto_announced {c : Conf} {a b : Tbl} (ha : included c a = true) (hb : included c b = true)
    (h : ∃ x ∈ standard, x.name = a ∧ b ∈ x.next) : Announced c a (goto c a b) := by
  obtain ⟨x, hx, ex, hm⟩ := h
  rw [goto_eq ha hb hx ex hm]
  exact this_announced ha hb ⟨x, hx, ex, hm⟩

theorem miss_announced {c : Conf} {t m : Tbl} (has : included c t = true)
    (is : (table c t).bind (fun x => x.miss) = some m) : Announced c t (gotoMiss c t m) := by
  obtain ⟨s, hs⟩ := exists_table has
  have g := miss_good has is
  rw [hs] at is
  have is : s.miss = some m := is
  obtain ⟨_, _, _, d', hd', e', _⟩ := g
  cases hd : table c m with
  | none => simp [gotoMiss, hs, hd] at e'
  | some d =>
    have e : gotoMiss c t m = some (.goto d.id) := by simp [gotoMiss, hs, hd, is]
    exact ⟨d, (table_mem hd).1, e, s, (table_mem hs).1, (table_mem hs).2, Or.inr (by rw [(table_mem hd).2, is])⟩

/-- **Every goto is to a table that was announced to the switch**, except from the hairpin table, which announces none. -/
theorem site_announced {c : Conf} {t : Tbl} {i : Option Inst} (h : Site c t i) (n : c.egressPipeline = true → t ≠ .hairpin) :
    Announced c t i := by
  cases h with
  | miss t m has is => exact miss_announced has is
  | portVlanAcl has => exact goto_announced rfl has (by decide)
  | portVlan =>
    have hi := class_included c
    rcases class_cases c with e | e <;> rw [e] at hi ⊢ <;>
      exact goto_announced rfl hi (by decide)
  | copro has => exact goto_announced rfl has (by decide)
  | coproSrc has =>
    have hi := out_included c
    rcases out_cases c with e | e <;> rw [e] at hi ⊢ <;>
      exact goto_announced rfl hi (by decide)
  | ethSrc =>
    have hi := out_included c
    rcases out_cases c with e | e <;> rw [e] at hi ⊢ <;>
      exact goto_announced rfl hi (by decide)
  | stackPort =>
    have hi := class_included c
    rcases class_cases c with e | e <;> rw [e] at hi ⊢ <;>
      exact this_announced rfl hi (by decide)
  | stackFlood =>
    have hi := class_included c
    rcases class_cases c with e | e <;> rw [e] at hi ⊢ <;>
      exact this_announced hi rfl (by decide)
  | known has =>
    have hi := outputTo_included has
    rcases outputTo_cases c with e | e <;> rw [e] at hi ⊢ <;>
      exact this_announced rfl hi (by decide)
  | hairpin has hp => exact absurd rfl (n has)
  | toFib4 has =>
    have hi := class_included c
    rcases class_cases c with e | e <;> rw [e] at hi ⊢ <;>
      exact this_announced hi has (by decide)
  | toFib6 has =>
    have hi := class_included c
    rcases class_cases c with e | e <;> rw [e] at hi ⊢ <;>
      exact this_announced hi has (by decide)
  | toVip has =>
    have hi := class_included c
    rcases class_cases c with e | e <;> rw [e] at hi ⊢ <;>
      exact this_announced hi has (by decide)
  | fib4Vip has => exact goto_announced has (by simp [included, has]) (by decide)
  | fib6Vip has => exact goto_announced has (by simp [included, has]) (by decide)
  | fib4Out has =>
    have hi := out_included c
    rcases out_cases c with e | e <;> rw [e] at hi ⊢ <;>
      exact this_announced has hi (by decide)
  | fib6Out has =>
    have hi := out_included c
    rcases out_cases c with e | e <;> rw [e] at hi ⊢ <;>
      exact this_announced has hi (by decide)
  | vipOut has =>
    have hi := out_included c
    rcases out_cases c with e | e <;> rw [e] at hi ⊢ <;>
      exact this_announced has hi (by decide)
  | aclVlan has => exact this_announced has rfl (by decide)
  | aclForce has =>
    have hi := out_included c
    rcases out_cases c with e | e <;> rw [e] at hi ⊢ <;>
      exact this_announced has hi (by decide)
  | aclTunnel has => exact this_announced has rfl (by decide)
  | vlanAclOn has =>
    have hi := class_included c
    rcases class_cases c with e | e <;> rw [e] at hi ⊢ <;>
      exact this_announced has hi (by decide)
  | vlanAclForce has =>
    have hi := out_included c
    rcases out_cases c with e | e <;> rw [e] at hi ⊢ <;>
      exact this_announced has hi (by decide)
  | egressAcl has => exact this_announced has (by simp [included, Conf.egressPipeline, has]) (by decide)

/-- **Only tables that exist are announced**, and only such with larger ids. -/
theorem announced_exist {c : Conf} {s : TableConfig} {n : Tbl} (hs : s ∈ tables c) (h : n ∈ s.next ∨ s.miss = some n) :
    ∃ d ∈ tables c, d.name = n ∧ s.id < d.id := by
  have hin := (mem_tables hs).1
  obtain ⟨x, hx⟩ := exists_table hin
  have ex : x = s := names_inj (table_mem hx).1 hs (table_mem hx).2
  have main : included c n = true ∧ rank s.name < rank n ∧ ¬ (s.name = .copro ∧ n = .vlanAcl) := by
    rcases h with h | h
    · obtain ⟨_, y, hy, ey, _, ny, _⟩ := mem_tables hs
      rw [ny] at h
      obtain ⟨h1, h2⟩ := List.mem_filter.1 h
      have key : ∀ y ∈ standard, ∀ n ∈ y.next, rank y.name < rank n ∧ ¬ (y.name = .copro ∧ n = .vlanAcl) := by decide
      rw [← ey]
      exact ⟨h2, key y hy n h1⟩
    · have hb : (table c s.name).bind (fun x => x.miss) = some n := by rw [hx, ex]; exact h
      obtain ⟨_, y, hy, ey, my, _, _⟩ := mem_tables hs
      rw [my] at h
      unfold missOf at h
      by_cases q : y.name = .ethDst ∧ included c .egressAcl = true
      · rw [if_pos q] at h
        cases h
        rw [← ey, q.1]
        exact ⟨q.2, by decide, by decide⟩
      · rw [if_neg q] at h
        have key : ∀ x ∈ standard, ∀ m, x.miss = some m →
            (m = .ethDst ∨ m = .ethSrc ∨ m = .flood) ∧ rank x.name < rank m ∧ ¬ (x.name = .copro ∧ m = .vlanAcl) := by decide
        obtain ⟨h1, h2⟩ := key y hy n h
        rw [← ey]
        refine ⟨?_, h2⟩
        rcases h1 with h1 | h1 | h1 <;> rw [h1] <;> rfl
  obtain ⟨d, hd⟩ := exists_table main.1
  rw [ex] at hx
  exact ⟨d, (table_mem hd).1, (table_mem hd).2, id_lt hx hd main.2.1 (fun _ => main.2.2)⟩

end Faucet.Pipeline
