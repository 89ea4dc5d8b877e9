import Verif.Valid.Props
import Verif.Stack.Tree

/-!
# Stack links of an accepted configuration (C68)
-/

namespace Faucet.Valid
open Faucet Faucet.Stack

variable {c : Conf}

/-! ## Vocabulary -/

/-- Port `n` of switch `a` is configured as a stack port that leads to port `m` of switch `b`. -/
def LeadsTo (dps : List Dp) (a n b m : Nat) : Prop :=
  ∃ d ∈ dps, d.conf.name = a ∧ ∃ p ∈ d.ports, p.number = n ∧ ∃ k, p.stack = some (b, k) ∧ ∃ d' ∈ dps, d'.conf.name = b ∧ Denotes d'.ports k m

/-- Switches with a stack link from one to the other. -/
def Neighbour (dps : List Dp) (a b : Nat) : Prop := ∃ n m, LeadsTo dps a n b m ∨ LeadsTo dps b m a n

/-! ## Links -/

theorem names_nodup (hk : c.Keyed) {dps : List Dp} (h : parse c = some dps) : (dps.map (·.conf.name)).Nodup := by
  have : dps.map (·.conf.name) = c.dps.map (·.name) := by
    rw [← switches_as_configured hk h, List.map_map]; rfl
  rw [this]; exact hk.dps

theorem stackPeer_iff {dps : List Dp} (hn : (dps.map (·.conf.name)).Nodup) {r : Nat × Key} {q : Port} :
    stackPeer dps r = some q ↔ ∃ d ∈ dps, d.conf.name = r.1 ∧ resolvePort d.ports r.2 = some q := by
  unfold stackPeer
  constructor
  · intro h
    split at h
    · cases h
    · rename_i d hd
      exact ⟨d, List.mem_of_find?_eq_some hd, by simpa using List.find?_some hd, h⟩
  · rintro ⟨d, hd, h1, h2⟩
    cases hf : dps.find? (fun d => d.conf.name == r.1) with
    | none => exact absurd (List.find?_eq_none.1 hf d hd) (by simp [h1])
    | some d' =>
      have hd' : d' = d := by
        refine List.inj_on_of_nodup_map hn (List.mem_of_find?_eq_some hf) hd ?_
        have : d'.conf.name = r.1 := by simpa using List.find?_some hf
        show d'.conf.name = d.conf.name
        rw [this, h1]
      subst hd'
      exact h2

theorem resolvePort_mem {ports : List Port} {k : Key} {q : Port} (h : resolvePort ports k = some q) : q ∈ ports := by
  cases k <;> exact List.mem_of_find?_eq_some h

/-- All links. -/
def allLinks (dps : List Dp) : List Link := dps.flatMap (Dp.links dps)

theorem mem_allLinks {dps : List Dp} {l : Link} :
    l ∈ allLinks dps ↔ ∃ d ∈ dps, ∃ p ∈ d.ports, ∃ r, p.stack = some r ∧ ∃ q, stackPeer dps r = some q ∧ l = ⟨d.conf.name, p, r.1, q⟩ := by
  unfold allLinks Dp.links
  simp only [List.mem_flatMap, List.mem_filterMap, Option.bind_eq_some_iff, Option.map_eq_some_iff]
  constructor
  · rintro ⟨d, hd, p, hp, r, hr, q, hq, rfl⟩
    exact ⟨d, hd, p, hp, r, hr, q, hq, rfl⟩
  · rintro ⟨d, hd, p, hp, r, hr, q, hq, rfl⟩
    exact ⟨d, hd, p, hp, r, hr, q, hq, rfl⟩

theorem mem_cabling {dps : List Dp} (hn : (dps.map (·.conf.name)).Nodup) {x : Cable} :
    x ∈ cabling (allLinks dps) ↔ LeadsTo dps x.dp x.num x.peerDp x.peerNum := by
  unfold cabling
  rw [List.mem_map]
  constructor
  · rintro ⟨l, hl, rfl⟩
    obtain ⟨d, hd, p, hp, r, hr, q, hq, rfl⟩ := mem_allLinks.1 hl
    obtain ⟨d', hd', h1, h2⟩ := (stackPeer_iff hn).1 hq
    exact ⟨d, hd, rfl, p, hp, rfl, r.2, hr, d', hd', h1, resolve_iff.1 (by rw [h2]; rfl)⟩
  · rintro ⟨d, hd, h1, p, hp, h2, k, hk, d', hd', h3, h4⟩
    obtain ⟨q, hq, hqn⟩ := Option.map_eq_some_iff.1 (resolve_iff.2 h4)
    refine ⟨⟨d.conf.name, p, x.peerDp, q⟩, mem_allLinks.2 ⟨d, hd, p, hp, (x.peerDp, k), hk, q, (stackPeer_iff hn).2 ⟨d', hd', h3, hq⟩, rfl⟩, ?_⟩
    cases x
    simp only at h1 h2 hqn
    rw [h1, h2, hqn]

/-- Each link is listed once. -/
theorem links_nodup {dps : List Dp} (hn : (dps.map (·.conf.name)).Nodup) (hp : ∀ d ∈ dps, (d.ports.map (·.number)).Nodup) :
    ((allLinks dps).map (fun l => (l.dp, l.port.number))).Nodup := by
  unfold allLinks
  have gen : ∀ (l : List Dp), (l.map (·.conf.name)).Nodup → (∀ d ∈ l, (d.ports.map (·.number)).Nodup) →
      ((l.flatMap (Dp.links dps)).map (fun l => (l.dp, l.port.number))).Nodup := by
    intro l
    induction l with
    | nil => intro _ _; simp
    | cons d l ih =>
      intro h1 h2
      rw [List.flatMap_cons, List.map_append, List.nodup_append]
      rw [List.map_cons, List.nodup_cons] at h1
      refine ⟨?_, ih h1.2 (fun d hd => h2 d (List.mem_cons_of_mem _ hd)), ?_⟩
      · have hd := h2 d List.mem_cons_self
        unfold Dp.links
        have gen2 : ∀ (ps : List Port), (ps.map (·.number)).Nodup →
            ((ps.filterMap (fun p => p.stack.bind (fun r => (stackPeer dps r).map (fun q => (⟨d.conf.name, p, r.1, q⟩ : Link))))).map
              (fun l => (l.dp, l.port.number))).Nodup := by
          intro ps
          induction ps with
          | nil => intro _; simp
          | cons p ps ihp =>
            intro hps
            rw [List.map_cons, List.nodup_cons] at hps
            rw [List.filterMap_cons]
            split
            · exact ihp hps.2
            · rename_i x hx
              rw [List.map_cons, List.nodup_cons]
              refine ⟨?_, ihp hps.2⟩
              intro hm
              obtain ⟨y, hy, hxy⟩ := List.mem_map.1 hm
              obtain ⟨p', hp', hy'⟩ := List.mem_filterMap.1 hy
              obtain ⟨r, _, hr⟩ := Option.bind_eq_some_iff.1 hx
              obtain ⟨q, _, rfl⟩ := Option.map_eq_some_iff.1 hr
              obtain ⟨r', _, hr'⟩ := Option.bind_eq_some_iff.1 hy'
              obtain ⟨q', _, rfl⟩ := Option.map_eq_some_iff.1 hr'
              have := (Prod.mk.inj hxy).2
              exact hps.1 (List.mem_map.2 ⟨p', hp', this⟩)
        exact gen2 _ hd
      · intro a ha b hb heq
        subst heq
        obtain ⟨x, hx, rfl⟩ := List.mem_map.1 ha
        obtain ⟨y, hy, hxy⟩ := List.mem_map.1 hb
        obtain ⟨d', hd', hy⟩ := List.mem_flatMap.1 hy
        have hxd : x.dp = d.conf.name := by
          unfold Dp.links at hx
          obtain ⟨p, _, h⟩ := List.mem_filterMap.1 hx
          obtain ⟨r, _, h⟩ := Option.bind_eq_some_iff.1 h
          obtain ⟨q, _, rfl⟩ := Option.map_eq_some_iff.1 h
          rfl
        have hyd : y.dp = d'.conf.name := by
          unfold Dp.links at hy
          obtain ⟨p, _, h⟩ := List.mem_filterMap.1 hy
          obtain ⟨r, _, h⟩ := Option.bind_eq_some_iff.1 h
          obtain ⟨q, _, rfl⟩ := Option.map_eq_some_iff.1 h
          rfl
        have := (Prod.mk.inj hxy).1
        exact h1.1 (List.mem_map.2 ⟨d', hd', by rw [← hyd, this, hxd]⟩)
  exact gen dps hn hp

/-- What the check of the topology comes to. -/
theorem topologyOk_spec {dps : List Dp} (h : topologyOk dps = true) :
    (∀ d ∈ dps, d.stacked = false) ∨
    ∃ root, root ∈ rootCands dps ∧ (∀ d ∈ rootCands dps, rootLe root d = true) ∧ (∀ d ∈ rootCands dps, 0 < d.conf.priority.getD 0) ∧
      (∀ x ∈ allLinks dps, x.unsortable = false ∧ (allLinks dps).countP (fun y => x.same y) = 2) ∧
      ∀ s ∈ (fullGraph (cabling (allLinks dps))).nodes, shortestPath (fullGraph (cabling (allLinks dps))) s root.conf.name ≠ [] := by
  unfold topologyOk at h
  simp only at h
  split at h
  · left
    rw [Bool.not_eq_true', List.any_eq_false] at h
    intro d hd
    simpa using h d hd
  · rename_i root rs hroot
    right
    rw [Bool.and_eq_true, Bool.and_eq_true, List.all_eq_true, List.all_eq_true, List.all_eq_true] at h
    obtain ⟨⟨h1, h2⟩, h3⟩ := h
    have hmem : root ∈ isort rootLe (rootCands dps) := by rw [hroot]; simp
    have hsort := isort_pairwise (le := rootLe)
      (by intro a b; unfold rootLe; simp only [Bool.or_eq_true, Bool.and_eq_true, decide_eq_true_eq]; omega)
      (by intro a b c; unfold rootLe; simp only [Bool.or_eq_true, Bool.and_eq_true, decide_eq_true_eq]; omega) (rootCands dps)
    refine ⟨root, mem_isort.1 hmem, ?_, fun d hd => by simpa using h1 d hd, ?_, ?_⟩
    · intro d hd
      have hd' : d ∈ isort rootLe (rootCands dps) := mem_isort.2 hd
      rw [hroot] at hd' hsort
      rcases List.mem_cons.1 hd' with rfl | hd'
      · unfold rootLe; simp
      · exact (List.pairwise_cons.1 hsort).1 d hd'
    · intro x hx
      have := h2 x hx
      rw [Bool.and_eq_true] at this
      have h5 : (allLinks dps).countP (fun y => x.same y) == 2 := this.2
      exact ⟨by simpa using this.1, by simpa using h5⟩
    · intro s hs
      have : (!(shortestPath (fullGraph (cabling (allLinks dps))) s root.conf.name).isEmpty) = true := h3 s hs
      simpa using this

theorem stacked_iff {d : Dp} : d.stacked = true ↔ ∃ p ∈ d.ports, p.stack ≠ none := by
  unfold Dp.stacked
  rw [List.any_eq_true]
  simp only [Option.isSome_iff_ne_none]

/-! ## Properties -/

/-- The other end of every stack port exists. -/
theorem stack_references_resolve (hk : c.Keyed) {dps : List Dp} (h : parse c = some dps) {d : Dp} (hd : d ∈ dps) {p : Port} (hp : p ∈ d.ports)
    {b : Nat} {k : Key} (hs : p.stack = some (b, k)) : ∃ m, LeadsTo dps d.conf.name p.number b m := by
  obtain ⟨dps0, hpp⟩ := parse_spec hk h
  obtain ⟨dc, d0, vs, outs, o⟩ := hpp.one hd
  have hp' := hp
  rw [o.ports] at hp'
  obtain ⟨p0, hp0, rfl⟩ := List.mem_map.1 hp'
  have hok := o.stack p0 hp0
  have hs0 : p0.stack = some (b, k) := hs
  unfold stackOk at hok
  rw [hs0] at hok
  obtain ⟨q, hq⟩ := Option.isSome_iff_exists.1 hok
  unfold stackPeer at hq
  simp only at hq
  split at hq
  · cases hq
  · rename_i d1 hd1
    have hm1 := List.mem_of_find?_eq_some hd1
    have hn1 : d1.conf.name = b := by simpa using List.find?_some hd1
    obtain ⟨d1', hd1', hf⟩ := mem_of_forall₂' hpp.final hm1
    obtain ⟨-, -, -, outs', -, hc, hports, -⟩ := finalizeDp_spec hf
    refine ⟨q.number, d, hd, rfl, _, hp, rfl, k, hs, d1', hd1', by rw [hc, hn1], ?_⟩
    rw [hports, denotes_resolved, ← resolve_iff, hq]
    rfl

theorem two_of_count {α : Type} {l : List α} {f : α → Bool} (h : l.countP f = 2) (hn : l.Nodup) (x : α) :
    ∃ y ∈ l, y ≠ x ∧ f y = true := by
  by_contra hc
  have hall : ∀ y ∈ l.filter f, y = x := by
    intro y hy
    obtain ⟨h1, h2⟩ := List.mem_filter.1 hy
    by_contra hne
    exact hc ⟨y, h1, hne, h2⟩
  rw [List.countP_eq_length_filter] at h
  have hnf : (l.filter f).Nodup := hn.filter _
  match hl : l.filter f, h, hall, hnf with
  | [a, b], _, hall, hnf =>
    have ha := hall a (by simp)
    have hb := hall b (by simp)
    rw [ha, hb] at hnf
    simp at hnf

/-- Every stack link is configured from both ends, each port is the end of one link, and all links are known: the cabling is as the
stack model (C14 to C16, C45, C49) needs it. Provided that the ports of each switch have different names (`Ex.one_sided_link_defect`) and no
link leads from a switch to itself (`Ex.self_link_defect`). -/
theorem accepted_cabling_partial (hk : c.Keyed) {dps : List Dp} (h : parse c = some dps)
    (hnames : ∀ d ∈ dps, (d.ports.map (·.name)).Nodup) (hself : ∀ a n m, ¬LeadsTo dps a n a m) :
    (cabling (allLinks dps)).Ok := by
  have hn := names_nodup hk h
  have hpn : ∀ d ∈ dps, (d.ports.map (·.number)).Nodup := fun d hd => (ports_as_configured hk h hd).2.2
  obtain ⟨dps0, hpp⟩ := parse_spec hk h
  have hnd := links_nodup hn hpn
  have hu : ∀ x ∈ cabling (allLinks dps), ∀ y ∈ cabling (allLinks dps), x.dp = y.dp → x.num = y.num → x = y := by
    intro x hx y hy h1 h2
    obtain ⟨l, hl, rfl⟩ := List.mem_map.1 hx
    obtain ⟨l', hl', rfl⟩ := List.mem_map.1 hy
    have h1 : l.dp = l'.dp := h1
    have h2 : l.port.number = l'.port.number := h2
    rw [List.inj_on_of_nodup_map hnd hl hl' (by rw [h1, h2])]
  refine ⟨?_, hu, ?_, ?_⟩
  · intro x hx
    obtain ⟨l, hl, rfl⟩ := List.mem_map.1 hx
    obtain ⟨d, hd, p, hp, r, hr, q, hq, rfl⟩ := mem_allLinks.1 hl
    rcases topologyOk_spec hpp.topology with hno | ⟨root, -, -, -, hcnt, -⟩
    · have := hno d hd
      rw [stacked_iff.2 ⟨p, hp, by rw [hr]; simp⟩] at this
      cases this
    · obtain ⟨-, hc2⟩ := hcnt _ hl
      obtain ⟨y, hy, hyx, hsame⟩ := two_of_count hc2 hnd.of_map _
      obtain ⟨d1, hd1, p1, hp1, r1, hr1, q1, hq1, rfl⟩ := mem_allLinks.1 hy
      obtain ⟨e1, he1, he1n, he1q⟩ := (stackPeer_iff hn).1 hq
      obtain ⟨e2, he2, he2n, he2q⟩ := (stackPeer_iff hn).1 hq1
      unfold Link.same at hsame
      simp only [Bool.or_eq_true, Bool.and_eq_true, beq_iff_eq] at hsame
      rcases hsame with ⟨⟨⟨h1, h2⟩, h3⟩, h4⟩ | ⟨⟨⟨h1, h2⟩, h3⟩, h4⟩
      · exfalso
        apply hyx
        have hdd : d = d1 := List.inj_on_of_nodup_map hn hd hd1 h1
        subst hdd
        have hpp : p = p1 := List.inj_on_of_nodup_map (hnames d hd) hp hp1 h2
        subst hpp
        rw [hr] at hr1
        cases hr1
        rw [hq] at hq1
        cases hq1
        rfl
      · refine List.mem_map.2 ⟨_, hy, ?_⟩
        have hde : d = e2 := List.inj_on_of_nodup_map hn hd he2 (by show d.conf.name = e2.conf.name; rw [he2n]; exact h1)
        subst hde
        have hd1e : d1 = e1 := List.inj_on_of_nodup_map hn hd1 he1 (by show d1.conf.name = e1.conf.name; rw [he1n]; exact h3.symm)
        subst hd1e
        have hpq : p = q1 := List.inj_on_of_nodup_map (hnames d hd) hp (resolvePort_mem he2q) h2
        subst hpq
        have hqp : q = p1 := List.inj_on_of_nodup_map (hnames d1 hd1) (resolvePort_mem he1q) hp1 h4
        subst hqp
        show (⟨d1.conf.name, q.number, r1.1, p.number⟩ : Cable) = ⟨r.1, q.number, d.conf.name, p.number⟩
        rw [← h1, ← h3]
  · intro x hx heq
    have := (mem_cabling hn).1 hx
    rw [heq] at this
    exact hself _ _ _ this
  · have hnd' : ((cabling (allLinks dps)).map (fun x => (x.dp, x.num))).Nodup := by
      unfold cabling
      rw [List.map_map]; exact hnd
    exact hnd'.of_map

/-- If there are stack ports then some switch is to be the root: it has stack ports and the least stack priority of these switches, which
is positive (of several the one with the least DPID), and every switch with stack ports is joined to it by links. -/
theorem stack_has_root (hk : c.Keyed) {dps : List Dp} (h : parse c = some dps) {d : Dp} (hd : d ∈ dps) {p : Port} (hp : p ∈ d.ports)
    (hs : p.stack ≠ none) :
    ∃ root ∈ dps, (∃ q ∈ root.ports, q.stack ≠ none) ∧ (∃ n, root.conf.priority = some n ∧ 0 < n ∧
      ∀ e ∈ dps, (∃ q ∈ e.ports, q.stack ≠ none) → ∀ m, e.conf.priority = some m → m ≠ 0 → n < m ∨ (n = m ∧ root.conf.dpId ≤ e.conf.dpId)) ∧
      ∀ e ∈ dps, (∃ q ∈ e.ports, q.stack ≠ none) → Connected (Neighbour dps) e.conf.name root.conf.name := by
  have hn := names_nodup hk h
  obtain ⟨dps0, hpp⟩ := parse_spec hk h
  rcases topologyOk_spec hpp.topology with hno | ⟨root, hroot, hmin, hpos, -, hconn⟩
  · have := hno d hd
    rw [stacked_iff.2 ⟨p, hp, hs⟩] at this
    cases this
  · obtain ⟨hrd, hr2⟩ := List.mem_filter.1 hroot
    rw [Bool.and_eq_true, bne_iff_ne] at hr2
    refine ⟨root, hrd, stacked_iff.1 hr2.1, ?_, ?_⟩
    · have h0 := hpos root hroot
      cases hpr : root.conf.priority with
      | none => rw [hpr] at h0; simp at h0
      | some n =>
        rw [hpr] at h0
        refine ⟨n, rfl, by simpa using h0, ?_⟩
        intro e he hes m hm hm0
        have hce : e ∈ rootCands dps := List.mem_filter.2 ⟨he, by rw [stacked_iff.2 hes, hm]; simpa using hm0⟩
        have := hmin e hce
        unfold rootLe at this
        rw [hpr, hm] at this
        simpa using this
    · rintro e he ⟨q, hq, hqs⟩
      cases hst : q.stack with
      | none => exact absurd hst hqs
      | some r =>
        obtain ⟨b, k⟩ := r
        obtain ⟨m, hl⟩ := stack_references_resolve hk h he hq hst
        have hcab := (mem_cabling (x := ⟨e.conf.name, q.number, b, m⟩) hn).2 hl
        have hnode := node_fullGraph hcab
        have hc := (shortestPath_ne_nil_iff (fullGraph_wf _) hnode).1 (hconn _ hnode)
        obtain ⟨w, hw⟩ := hc
        have step : ∀ {u v : Nat}, Adj (fullGraph (cabling (allLinks dps))) u v → Neighbour dps u v := by
          intro u v hadj
          unfold Adj adj at hadj
          obtain ⟨edge, hedge, huv⟩ := List.any_eq_true.1 hadj
          obtain ⟨x, hx, rfl⟩ := mem_fullGraph.1 hedge
          have hx' := (mem_cabling hn).1 hx
          simp only [Bool.or_eq_true, Bool.and_eq_true, beq_iff_eq] at huv
          unfold Cable.edge canonEdge at huv
          split at huv
          · rcases huv with ⟨rfl, rfl⟩ | ⟨rfl, rfl⟩
            · exact ⟨_, _, .inl hx'⟩
            · exact ⟨_, _, .inr hx'⟩
          · rcases huv with ⟨rfl, rfl⟩ | ⟨rfl, rfl⟩
            · exact ⟨_, _, .inr hx'⟩
            · exact ⟨_, _, .inl hx'⟩
        have gen : ∀ {a b : Nat} {w : List Nat}, Walk (Adj (fullGraph (cabling (allLinks dps)))) a b w → Walk (Neighbour dps) a b w := by
          intro a b w hw
          induction hw with
          | refl v => exact .refl v
          | step h1 _ ih => exact .step (step h1) ih
        exact ⟨w, gen hw⟩

/-- DPIDs are different, and 64-bit numbers. -/
theorem dpids_distinct (hk : c.Keyed) {dps : List Dp} (h : parse c = some dps) :
    (c.dps.map (·.dpId)).Nodup ∧ ∀ d ∈ c.dps, 0 ≤ d.dpId ∧ d.dpId < 2 ^ 64 := by
  obtain ⟨dps0, hpp⟩ := parse_spec hk h
  have hr := hpp.rest
  unfold restOk at hr
  rw [Bool.and_eq_true] at hr
  have h1 := of_decide_eq_true hr.1
  constructor
  · rw [← switches_as_configured hk h, List.map_map]
    exact h1
  · intro d hd
    obtain ⟨d0, -, vs, hread⟩ := mem_of_forall₂' hpp.read hd
    have hb := hread.inv.bad
    unfold DpConf.bad at hb
    simp only [Bool.or_eq_false_iff, decide_eq_false_iff_not] at hb
    obtain ⟨⟨⟨⟨⟨⟨⟨a, b⟩, -⟩, -⟩, -⟩, -⟩, -⟩, -⟩ := hb
    omega

end Faucet.Valid
