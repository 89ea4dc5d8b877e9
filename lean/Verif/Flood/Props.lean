import Verif.Flood.Lemmas

/-! # Flooding: what the actions of one ingress port do -/

namespace Faucet.Flood
open Faucet.OF Faucet.Actions

theorem length_copies_outputs {k : Pkt} {i n : Nat} (hk : k.hdr fInPort = some i) (hi : i ≠ portInPort)
    {ns : List Nat} (hnd : ns.Nodup) : (copiesTo n (ns.flatMap (emitPort k))).length ≤ 1 := by
  by_cases hn : n = i
  · subst hn
    rw [copiesTo_ingress hk hi hnd]; split <;> simp
  · induction ns with
    | nil => simp [copiesTo]
    | cons m ns ih =>
      obtain ⟨h1, h2⟩ := List.nodup_cons.1 hnd
      rw [List.flatMap_cons, copiesTo_append, copiesTo_emitPort hk hi hn]
      split
      · rename_i hm
        obtain ⟨rfl, hm⟩ := hm
        rw [copiesTo_outputs hk hi hn hm h2, if_neg h1]; simp
      · simpa using ih h2

theorem mem_outputs_emits {k : Pkt} {i : Nat} (hk : k.hdr fInPort = some i) {ns : List Nat} {e : Emit}
    (he : e ∈ ns.flatMap (emitPort k)) : e.port = i ∨ e.port ∈ ns := by
  obtain ⟨n, hn, he⟩ := List.mem_flatMap.1 he
  unfold emitPort at he
  split at he
  · rw [hk] at he
    simp only [List.mem_singleton] at he
    exact Or.inl (by rw [he])
  · split at he
    · simp at he
    · simp only [List.mem_singleton] at he
      exact Or.inr (by rw [he]; exact hn)

theorem isIn_some {v : FVlan} (h : WF v) {p q : FPort} (hp : p ∈ v.ports) (hq : q ∈ v.ports) :
    isIn (some p) q = false ↔ q ≠ p := by
  unfold isIn
  simp only [beq_eq_false_iff_ne, ne_eq]
  exact not_congr ⟨fun he => h.eq_of_number hq hp he, fun he => by rw [he]⟩

/-- Membership in the two output lists in terms of the configuration. -/
theorem due_iff {v : FVlan} (h : WF v) {p q : FPort} (hp : p ∈ v.ports) (hq : q ∈ v.ports) (hne : q ≠ p) {eu ae er : Bool}
    {T U : List Nat}
    (hT : ∀ n, n ∈ T ↔ ∃ q ∈ v.taggedFlood eu, .output n ∈ portOutputs (some p) (v.excluded (some p) ae (er && p.restricted)) q)
    (hU : ∀ n, n ∈ U ↔ ∃ q ∈ v.untaggedFlood eu, .output n ∈ portOutputs (some p) (v.excluded (some p) ae (er && p.restricted)) q) :
    (q.number ∈ T ↔ q ∈ v.tagged ∧ Due v p eu ae er q) ∧ (q.number ∈ U ↔ q ∉ v.tagged ∧ Due v p eu ae er q) := by
  have hTs : ∀ x ∈ v.taggedFlood eu, x ∈ v.ports := fun x hx => mem_ports.2 (Or.inl (taggedFlood_sub.1 hx).1)
  have hUs : ∀ x ∈ v.untaggedFlood eu, x ∈ v.ports := fun x hx => mem_ports.2 (Or.inr (untaggedFlood_sub.1 hx).1)
  rw [hT, hU, member_output h hTs hq, member_output h hUs hq, not_excluded_iff h hq, isIn_some h hp hq,
    taggedFlood_sub, untaggedFlood_sub]
  unfold Due FloodMember
  constructor
  · constructor
    · rintro ⟨⟨h1, h2⟩, h3, h4⟩; exact ⟨h1, hq, h3, ⟨hq, h2⟩, h4⟩
    · rintro ⟨h1, _, h3, ⟨_, h2⟩, h4⟩; exact ⟨⟨h1, h2⟩, h3, h4⟩
  · constructor
    · rintro ⟨⟨h1, h2⟩, h3, h4⟩; exact ⟨fun ht => h.disjoint ht h1, hq, h3, ⟨hq, h2⟩, h4⟩
    · rintro ⟨h1, _, h3, ⟨_, h2⟩, h4⟩
      refine ⟨⟨?_, h2⟩, h3, h4⟩
      rcases mem_ports.1 hq with ht | hu
      · exact absurd ht h1
      · exact hu

/-- Flood actions computed for an ingress port deliver. -/
theorem delivered_of_shape {v : FVlan} (h : WF v) {p : FPort} (hp : p ∈ v.ports) {eu ae er : Bool} {k : Pkt} (hk : InVlan v p k)
    {pre : List Action} {acts : List Action} {T U V : List Nat}
    (hT : ∀ n, n ∈ T ↔ ∃ q ∈ v.taggedFlood eu, .output n ∈ portOutputs (some p) (v.excluded (some p) ae (er && p.restricted)) q)
    (hU : ∀ n, n ∈ U ↔ ∃ q ∈ v.untaggedFlood eu, .output n ∈ portOutputs (some p) (v.excluded (some p) ae (er && p.restricted)) q)
    (hV : V = U.filter (fun n => !T.contains n)) (hs : Shape acts pre T V) (g : Nat → Option (List (List Action))) :
    Delivered v p eu ae er k (runActs g acts k).1 := by
  have hpi := h.notInPort p hp
  obtain ⟨h1, h2, h3⟩ := prePkt_hdr hs k
  have hVm : ∀ n, n ∈ V ↔ n ∈ U ∧ n ∉ T := by
    intro n; subst hV
    rw [List.mem_filter]; simp
  have hcop : ∀ q ∈ v.ports, q ≠ p → copiesTo q.number (runActs g acts k).1 =
      (if q.number ∈ T then [⟨q.number, (prePkt pre k).tags, k.hdr⟩] else []) ++
      (if q.number ∈ V then [⟨q.number, k.tags.tail, k.hdr⟩] else []) := by
    intro q hq hne
    exact copies_raw hs g hk.port hpi (fun he => hne (h.eq_of_number hq hp he)) (h.notInPort q hq)
  have hin := copies_raw_ingress hs g hk.port hpi
  have hTs : ∀ x ∈ v.taggedFlood eu, x ∈ v.ports := fun x hx => mem_ports.2 (Or.inl (taggedFlood_sub.1 hx).1)
  have hUs : ∀ x ∈ v.untaggedFlood eu, x ∈ v.ports := fun x hx => mem_ports.2 (Or.inr (untaggedFlood_sub.1 hx).1)
  have hiT : portInPort ∈ T ↔ p ∈ v.taggedFlood eu ∧ p.hairpin = true := by rw [hT, inPort_output h hp hTs]
  have hiU : portInPort ∈ U ↔ p ∈ v.untaggedFlood eu ∧ p.hairpin = true := by rw [hU, inPort_output h hp hUs]
  refine ⟨?_, ?_, ?_, ?_, ?_⟩
  · intro q hd
    have hq := hd.1
    have hne := hd.2.1
    obtain ⟨ht, hu⟩ := due_iff h hp hq hne hT hU
    rw [hcop q hq hne]
    by_cases hqt : q ∈ v.tagged
    · have hm : q.number ∈ T := ht.2 ⟨hqt, hd⟩
      rw [if_pos hm, if_neg (fun hv => ((hVm _).1 hv).2 hm)]
      refine ⟨_, rfl, rfl, rfl, ?_⟩
      rw [if_pos hqt]; exact h2
    · have hm : q.number ∉ T := fun hm => hqt (ht.1 hm).1
      have hm' : q.number ∈ V := (hVm _).2 ⟨hu.2 ⟨hqt, hd⟩, hm⟩
      rw [if_neg hm, if_pos hm']
      refine ⟨_, rfl, rfl, rfl, ?_⟩
      rw [if_neg hqt]
  · intro q hq hne hnd
    obtain ⟨ht, hu⟩ := due_iff h hp hq hne hT hU
    rw [hcop q hq hne, if_neg (fun hm => hnd (ht.1 hm).2), if_neg (fun hm => hnd (hu.1 ((hVm _).1 hm).1).2)]
    rfl
  · intro hh hf
    rw [hin]
    by_cases hpt : p ∈ v.tagged
    · have hm : portInPort ∈ T := hiT.2 ⟨taggedFlood_sub.2 ⟨hpt, hf.2⟩, hh⟩
      rw [if_pos hm, if_neg (fun hv => ((hVm _).1 hv).2 hm)]
      refine ⟨_, rfl, rfl, rfl, ?_⟩
      rw [if_pos hpt]; exact h2
    · have hm : portInPort ∉ T := fun hm => hpt (taggedFlood_sub.1 (hiT.1 hm).1).1
      have hpu : p ∈ v.untagged ++ v.dot1xUntagged := (mem_ports.1 hp).resolve_left hpt
      have hm' : portInPort ∈ V := (hVm _).2 ⟨hiU.2 ⟨untaggedFlood_sub.2 ⟨hpu, hf.2⟩, hh⟩, hm⟩
      rw [if_neg hm, if_pos hm']
      refine ⟨_, rfl, rfl, rfl, ?_⟩
      rw [if_neg hpt]
  · intro hn
    rw [hin, if_neg, if_neg]
    · rfl
    · intro hm
      obtain ⟨hm1, hm2⟩ := hiU.1 ((hVm _).1 hm).1
      exact hn ⟨hm2, hp, (untaggedFlood_sub.1 hm1).2⟩
    · intro hm
      obtain ⟨hm1, hm2⟩ := hiT.1 hm
      exact hn ⟨hm2, hp, (taggedFlood_sub.1 hm1).2⟩
  · have hcase : ∀ n, (∃ q ∈ v.taggedFlood eu, .output n ∈ portOutputs (some p) (v.excluded (some p) ae (er && p.restricted)) q) ∨
        (∃ q ∈ v.untaggedFlood eu, .output n ∈ portOutputs (some p) (v.excluded (some p) ae (er && p.restricted)) q) →
        n = portInPort ∨ (∃ q ∈ v.ports, n = q.number) ∨ ∃ q, Due v p eu ae er q ∧ n ∈ q.mirror := by
      intro n hn
      obtain ⟨q, hq, hqf, ho⟩ : ∃ q, q ∈ v.ports ∧ FloodMember v eu q ∧
          Action.output n ∈ portOutputs (some p) (v.excluded (some p) ae (er && p.restricted)) q := by
        rcases hn with ⟨q, hq, ho⟩ | ⟨q, hq, ho⟩
        · exact ⟨q, hTs q hq, ⟨hTs q hq, (taggedFlood_sub.1 hq).2⟩, ho⟩
        · exact ⟨q, hUs q hq, ⟨hUs q hq, (untaggedFlood_sub.1 hq).2⟩, ho⟩
      unfold portOutputs at ho
      split at ho
      · split at ho
        · simp at ho; exact Or.inl ho
        · simp at ho
      · rename_i hni
        split at ho
        · simp at ho
        · rename_i hnx
          rcases List.mem_cons.1 ho with ho | ho
          · exact Or.inr (Or.inl ⟨q, hq, by simpa using ho⟩)
          · split at ho
            · obtain ⟨m, hm, he⟩ := List.mem_map.1 ho
              refine Or.inr (Or.inr ⟨q, ⟨hq, ?_, hqf, ?_⟩, ?_⟩)
              · exact (isIn_some h hp hq).1 (by simpa using hni)
              · exact (not_excluded_iff h hq).1 (by simpa using hnx)
              · have : m = n := by simpa using he
                exact this ▸ hm
            · simp at ho
    intro e he
    rw [emits_shape hs] at he
    have hep : e.port = p.number ∨ e.port ∈ T ∨ e.port ∈ V := by
      rcases List.mem_append.1 he with he | he
      · rcases mem_outputs_emits (by rw [h1]; exact hk.port) he with he | he
        · exact Or.inl he
        · exact Or.inr (Or.inl he)
      · rcases mem_outputs_emits (by show (prePkt pre k).hdr fInPort = _; rw [h1]; exact hk.port) he with he | he
        · exact Or.inl he
        · exact Or.inr (Or.inr he)
    rcases hep with hep | hep
    · exact Or.inl ⟨p, hp, hep⟩
    · have hmem : e.port ∈ T ∨ e.port ∈ U := hep.imp id (fun hv => ((hVm _).1 hv).1)
      rcases hcase e.port (hmem.imp (hT _).1 (hU _).1) with hc | hc | hc
      · -- nothing is emitted through the reserved number itself
        exfalso
        rcases List.mem_append.1 he with he | he
        · obtain ⟨m, _, hm⟩ := List.mem_flatMap.1 he
          unfold emitPort at hm
          rw [h1, hk.port] at hm
          split at hm
          · simp only [List.mem_singleton] at hm
            rw [hm] at hc; exact hpi hc
          · rename_i hmn
            split at hm
            · simp at hm
            · simp only [List.mem_singleton] at hm
              rw [hm] at hc; exact hmn hc
        · obtain ⟨m, _, hm⟩ := List.mem_flatMap.1 he
          unfold emitPort at hm
          rw [show (Action.popVlan.apply (prePkt pre k)).hdr = k.hdr from h1, hk.port] at hm
          split at hm
          · simp only [List.mem_singleton] at hm
            rw [hm] at hc; exact hpi hc
          · rename_i hmn
            split at hm
            · simp at hm
            · simp only [List.mem_singleton] at hm
              rw [hm] at hc; exact hmn hc
      · exact Or.inl hc
      · exact Or.inr hc

/-- Cleaned-up flood actions give no port two copies. -/
theorem once_of_shape {k : Pkt} {i : Nat} (hki : k.hdr fInPort = some i) (hpi : i ≠ portInPort)
    {pre acts : List Action} {T V : List Nat} (hdisj : ∀ m, m ∈ T → m ∈ V → False) (hs : Shape acts pre T V)
    (g : Nat → Option (List (List Action))) (n : Nat) : (copiesTo n (runActs g acts k).1).length ≤ 1 := by
  obtain ⟨h1, h2, h3⟩ := prePkt_hdr hs k
  have hin := copies_raw_ingress hs g hki hpi
  by_cases hn : n = i
  · subst hn
    rw [hin]
    by_cases hm : portInPort ∈ T
    · rw [if_pos hm, if_neg (fun hv => hdisj _ hm hv)]; simp
    · rw [if_neg hm]; split <;> simp
  · by_cases hni : n = portInPort
    · -- the reserved number is never an emission port
      have : copiesTo n (runActs g acts k).1 = [] := by
        rw [emits_shape hs, copiesTo_append]
        have hz : ∀ (k' : Pkt), k'.hdr = k.hdr → ∀ ns : List Nat, copiesTo n (ns.flatMap (emitPort k')) = [] := by
          intro k' hk' ns
          induction ns with
          | nil => rfl
          | cons m ns ih =>
            rw [List.flatMap_cons, copiesTo_append, ih, copiesTo_emitPort (by rw [hk']; exact hki) hpi hn,
              if_neg (by rintro ⟨rfl, h⟩; exact h hni)]
            rfl
        rw [hz _ h1, hz (Action.popVlan.apply (prePkt pre k)) h1]; rfl
      rw [this]; simp
    · rw [copies_raw hs g hki hpi hn hni]
      by_cases hm : n ∈ T
      · rw [if_pos hm, if_neg (fun hv => hdisj _ hm hv)]; simp
      · rw [if_neg hm]; split <;> simp

/-- The flood actions FAUCET computes for packets received on an up port deliver every packet of the VLAN received on that
port: one rightly tagged copy to each member that is due one, none to the others, one back only for hairpin. -/
theorem port_flood_delivers {v : FVlan} (h : WF v) {p : FPort} (hp : p ∈ v.ports) (hup : p.physUp = true) (eu ae er : Bool)
    {k : Pkt} (hk : InVlan v p k) (g : Nat → Option (List (List Action))) :
    Delivered v p eu ae er k (runActs g (v.portActs eu p ae er).1 k).1 := by
  obtain ⟨pre, T, U, hs, hT, hU⟩ := ruleActs_shape v eu (some p) ae (er && p.restricted)
  obtain ⟨acts', hs', he⟩ := cleanup_is_shape hs g k
  have hd := delivered_of_shape h hp hk hT hU rfl hs' g
  have hports := (cleanup_shape hs).2.1
  have hact : (runActs g (v.portActs eu p ae er).1 k).1 = (runActs g acts' k).1 := by
    unfold FVlan.portActs
    rw [if_pos hup]
    simp only
    split
    · rename_i hem
      rw [hports] at hem
      obtain ⟨hem1, hem2⟩ := List.append_eq_nil_iff.1 hem
      rw [emits_shape hs', hem2, hem1]
      rfl
    · exact he
  rw [hact]
  exact hd

/-- And they give no port at all, mirrors included, two copies. -/
theorem port_flood_once {v : FVlan} (h : WF v) {p : FPort} (hp : p ∈ v.ports) (eu ae er : Bool)
    {k : Pkt} (hk : InVlan v p k) (g : Nat → Option (List (List Action))) (n : Nat) :
    (copiesTo n (runActs g (v.portActs eu p ae er).1 k).1).length ≤ 1 := by
  obtain ⟨pre, T, U, hs, hT, hU⟩ := ruleActs_shape v eu (some p) ae (er && p.restricted)
  obtain ⟨acts', hs', he⟩ := cleanup_is_shape hs g k
  unfold FVlan.portActs
  split
  · simp only
    split
    · simp [runActs, copiesTo]
    · rw [he]
      refine once_of_shape hk.port (h.notInPort p hp) ?_ hs' g n
      intro m h1 h2
      rw [List.mem_filter] at h2
      simp [h1] at h2
  · simp [runActs, copiesTo]

/-! ## Consequences of a correct flood -/

/-- Only members that are due a copy get one, the ingress port aside. -/
theorem Delivered.due_of_copy {v : FVlan} {p : FPort} {eu ae er : Bool} {k : Pkt} {es : List Emit}
    (d : Delivered v p eu ae er k es) {q : FPort} (hq : q ∈ v.ports) (hne : q ≠ p) (hc : copiesTo q.number es ≠ []) :
    Due v p eu ae er q := by
  by_contra hn
  exact hc (d.notDue q hq hne hn)

theorem chosen_unique {v : FVlan} {q r : FPort} (hq : Chosen v q) (hr : Chosen v r)
    (hl : q.lacp = r.lacp) : q = r := by
  by_cases hz : q.lacp = 0
  · obtain ⟨a, b, e1, s1, u1, f1⟩ := hq
    obtain ⟨c, d, e2, s2, u2, f2⟩ := hr
    have := e1.symm.trans e2
    rcases List.append_eq_append_iff.1 this with ⟨x, hx1, hx2⟩ | ⟨x, hx1, hx2⟩
    · cases x with
      | nil => simp at hx2; exact hx2.1
      | cons y x =>
        have hy : y = q := by simp at hx2; exact hx2.1.symm
        subst hy
        exact absurd ⟨s1, u1⟩ (f2 y (by rw [hx1]; simp) hl)
    · cases x with
      | nil => simp at hx2; exact hx2.1.symm
      | cons y x =>
        have hy : y = r := by simp at hx2; exact hx2.1.symm
        subst hy
        exact absurd ⟨s2, u2⟩ (f1 y (by rw [hx1]; simp) hl.symm)
  · obtain ⟨x, hx⟩ := (chosen_iff hz).1 hq
    obtain ⟨y, hy⟩ := (chosen_iff (by rw [← hl]; exact hz)).1 hr
    rw [hl, hy] at hx
    simp at hx; exact hx.1.symm

/-- A flood leaves through at most one member of each bundle, a selected and up one, and never through the bundle it came
in on. -/
theorem Delivered.one_lag_member {v : FVlan} {p : FPort} {eu ae er : Bool} {k : Pkt} {es : List Emit}
    (d : Delivered v p eu ae er k es) {q r : FPort} (hq : q ∈ v.ports) (hqp : q ≠ p) (hr : r ∈ v.ports) (hrp : r ≠ p)
    (hl : q.lacp ≠ 0) (hqr : q.lacp = r.lacp) (hcq : copiesTo q.number es ≠ []) (hcr : copiesTo r.number es ≠ []) :
    q = r ∧ q.selected = true ∧ q.actorUp = true ∧ p.lacp ≠ q.lacp := by
  have h1 := (d.due_of_copy hq hqp hcq).2.2.2.lag hl
  have h2 := (d.due_of_copy hr hrp hcr).2.2.2.lag (by rw [← hqr]; exact hl)
  obtain ⟨_, _, _, hs, hu, _⟩ := h1.1
  exact ⟨chosen_unique h1.1 h2.1 hqr, hs, hu, h1.2 p rfl⟩

/-- A flood leaves through at most one up external port, and through none if it came in on an external port. -/
theorem Delivered.one_external {v : FVlan} (h : WF v) {p : FPort} {eu ae er : Bool} {k : Pkt} {es : List Emit}
    (d : Delivered v p eu ae er k es) {q r : FPort} (hq : q ∈ v.ports) (hqp : q ≠ p) (hr : r ∈ v.ports) (hrp : r ≠ p)
    (hqe : q.external = true) (hqu : q.physUp = true) (hre : r.external = true) (hru : r.physUp = true)
    (hcq : copiesTo q.number es ≠ []) (hcr : copiesTo r.number es ≠ []) :
    q = r ∧ p.external = false ∧ ae = false := by
  have h1 := (d.due_of_copy hq hqp hcq).2.2.2.ext hqe hqu
  have h2 := (d.due_of_copy hr hrp hcr).2.2.2.ext hre hru
  have a1 := h1.2.2 r hr hre hru
  have a2 := h2.2.2 q hq hqe hqu
  exact ⟨h.eq_of_number hq hr (by omega), h1.2.1 p rfl, h1.1⟩

theorem Delivered.safe {v : FVlan} (h : WF v) {p : FPort} {eu ae er : Bool} {k : Pkt} {es : List Emit}
    (d : Delivered v p eu ae er k es) : Safe v p k es where
  noReturn := fun hh => d.noReturn (by simp [hh])
  atMostOne := by
    intro q hq
    by_cases hqp : q = p
    · subst hqp
      by_cases hh : q.hairpin = true ∧ FloodMember v eu q
      · exact Or.inr (d.hairpin hh.1 hh.2)
      · exact Or.inl (d.noReturn hh)
    · by_cases hd : Due v p eu ae er q
      · exact Or.inr (d.due q hd)
      · exact Or.inl (d.notDue q hq hqp hd)
  within := by
    intro e he
    rcases d.within e he with h1 | ⟨q, hd, hm⟩
    · exact Or.inl h1
    · exact Or.inr ⟨q, hd.1, hm⟩
  oneOfLag := by
    intro q hq r hr hqp hrp hl hqr hcq hcr
    obtain ⟨h1, h2, h3, _⟩ := d.one_lag_member hq hqp hr hrp hl hqr hcq hcr
    exact ⟨h1, h2, h3⟩
  oneExternal := by
    intro q hq r hr hqp hrp h1 h2 h3 h4 hcq hcr
    exact (d.one_external h hq hqp hr hrp h1 h2 h3 h4 hcq hcr).1

/-! ## The rule of the whole VLAN -/

/-- Members in the output lists of the VLAN's rule. -/
theorem vlan_mem_iff {v : FVlan} (h : WF v) {q : FPort} (hq : q ∈ v.ports) {eu ae er : Bool}
    {T U : List Nat}
    (hT : ∀ n, n ∈ T ↔ ∃ q ∈ v.taggedFlood eu, .output n ∈ portOutputs none (v.excluded none ae er) q)
    (hU : ∀ n, n ∈ U ↔ ∃ q ∈ v.untaggedFlood eu, .output n ∈ portOutputs none (v.excluded none ae er) q) :
    (q.number ∈ T ↔ q ∈ v.tagged ∧ FloodMember v eu q ∧ Eligible v none ae er q) ∧
    (q.number ∈ U ↔ q ∉ v.tagged ∧ FloodMember v eu q ∧ Eligible v none ae er q) := by
  have hTs : ∀ x ∈ v.taggedFlood eu, x ∈ v.ports := fun x hx => mem_ports.2 (Or.inl (taggedFlood_sub.1 hx).1)
  have hUs : ∀ x ∈ v.untaggedFlood eu, x ∈ v.ports := fun x hx => mem_ports.2 (Or.inr (untaggedFlood_sub.1 hx).1)
  rw [hT, hU, member_output h hTs hq, member_output h hUs hq, not_excluded_iff h hq, taggedFlood_sub, untaggedFlood_sub]
  unfold FloodMember
  constructor
  · constructor
    · rintro ⟨⟨h1, h2⟩, _, h4⟩; exact ⟨h1, ⟨hq, h2⟩, h4⟩
    · rintro ⟨h1, ⟨_, h2⟩, h4⟩; exact ⟨⟨h1, h2⟩, rfl, h4⟩
  · constructor
    · rintro ⟨⟨h1, h2⟩, _, h4⟩; exact ⟨fun ht => h.disjoint ht h1, ⟨hq, h2⟩, h4⟩
    · rintro ⟨h1, ⟨_, h2⟩, h4⟩
      exact ⟨⟨(mem_ports.1 hq).resolve_left h1, h2⟩, rfl, h4⟩

/-- Any output of the VLAN's rule is to a member or one of its mirrors. -/
theorem vlan_outputs {v : FVlan} {eu ae er : Bool} {n : Nat}
    (hn : (∃ q ∈ v.taggedFlood eu, .output n ∈ portOutputs none (v.excluded none ae er) q) ∨
      (∃ q ∈ v.untaggedFlood eu, .output n ∈ portOutputs none (v.excluded none ae er) q)) :
    ∃ q ∈ v.ports, n = q.number ∨ n ∈ q.mirror := by
  obtain ⟨q, hq, ho⟩ : ∃ q ∈ v.ports, Action.output n ∈ portOutputs none (v.excluded none ae er) q := by
    rcases hn with ⟨q, hq, ho⟩ | ⟨q, hq, ho⟩
    · exact ⟨q, mem_ports.2 (Or.inl (taggedFlood_sub.1 hq).1), ho⟩
    · exact ⟨q, mem_ports.2 (Or.inr (untaggedFlood_sub.1 hq).1), ho⟩
  refine ⟨q, hq, ?_⟩
  unfold portOutputs at ho
  rw [if_neg (by simp [isIn])] at ho
  split at ho
  · simp at ho
  · rcases List.mem_cons.1 ho with ho | ho
    · exact Or.inl (by simpa using ho)
    · split at ho
      · obtain ⟨m, hm, he⟩ := List.mem_map.1 ho
        have : m = n := by simpa using he
        exact Or.inr (this ▸ hm)
      · simp at ho

theorem vlan_no_inPort {v : FVlan} (h : WF v) {eu ae er : Bool} :
    ¬ ((∃ q ∈ v.taggedFlood eu, .output portInPort ∈ portOutputs none (v.excluded none ae er) q) ∨
      (∃ q ∈ v.untaggedFlood eu, .output portInPort ∈ portOutputs none (v.excluded none ae er) q)) := by
  intro hn
  obtain ⟨q, hq, hm | hm⟩ := vlan_outputs hn
  · exact h.notInPort q hq hm.symm
  · exact (h.mirrors q hq _ hm).1 rfl

/-- Copies of the VLAN's rule. -/
theorem vlan_copies {v : FVlan} (h : WF v) {p : FPort} (hp : p ∈ v.ports) {eu ae er : Bool} {k : Pkt} (hk : InVlan v p k)
    (g : Nat → Option (List (List Action))) :
    (∀ q ∈ v.ports, q ≠ p → FloodMember v eu q → Eligible v none ae er q →
      ∃ e, copiesTo q.number (runActs g (v.ruleActs eu none ae er) k).1 = [e] ∧ RightCopy v k q e) ∧
    (∀ q ∈ v.ports, q ≠ p → ¬ (FloodMember v eu q ∧ Eligible v none ae er q) →
      copiesTo q.number (runActs g (v.ruleActs eu none ae er) k).1 = []) ∧
    copiesTo p.number (runActs g (v.ruleActs eu none ae er) k).1 = [] ∧
    ∀ e ∈ (runActs g (v.ruleActs eu none ae er) k).1, e.port ≠ p.number ∧ .output e.port ∈ v.ruleActs eu none ae er := by
  obtain ⟨pre, T, U, hs, hT, hU⟩ := ruleActs_shape v eu none ae er
  obtain ⟨h1, h2, h3⟩ := prePkt_hdr hs k
  have hpi := h.notInPort p hp
  have hnT : portInPort ∉ T := fun hm => vlan_no_inPort h (Or.inl ((hT _).1 hm))
  have hnU : portInPort ∉ U := fun hm => vlan_no_inPort h (Or.inr ((hU _).1 hm))
  have hcop : ∀ q ∈ v.ports, q ≠ p → copiesTo q.number (runActs g (v.ruleActs eu none ae er) k).1 =
      (if q.number ∈ T then [⟨q.number, (prePkt pre k).tags, k.hdr⟩] else []) ++
      (if q.number ∈ U then [⟨q.number, k.tags.tail, k.hdr⟩] else []) := by
    intro q hq hne
    exact copies_raw hs g hk.port hpi (fun he => hne (h.eq_of_number hq hp he)) (h.notInPort q hq)
  have hback : copiesTo p.number (runActs g (v.ruleActs eu none ae er) k).1 = [] := by
    rw [copies_raw_ingress hs g hk.port hpi, if_neg hnT, if_neg hnU]; rfl
  refine ⟨?_, ?_, hback, ?_⟩
  · intro q hq hne hf he
    obtain ⟨ht, hu⟩ := vlan_mem_iff h hq hT hU
    rw [hcop q hq hne]
    by_cases hqt : q ∈ v.tagged
    · rw [if_pos (ht.2 ⟨hqt, hf, he⟩), if_neg (fun hm => (hu.1 hm).1 hqt)]
      refine ⟨_, rfl, rfl, rfl, ?_⟩
      rw [if_pos hqt]; exact h2
    · rw [if_neg (fun hm => hqt (ht.1 hm).1), if_pos (hu.2 ⟨hqt, hf, he⟩)]
      refine ⟨_, rfl, rfl, rfl, ?_⟩
      rw [if_neg hqt]
  · intro q hq hne hn
    obtain ⟨ht, hu⟩ := vlan_mem_iff h hq hT hU
    rw [hcop q hq hne, if_neg (fun hm => hn (ht.1 hm).2), if_neg (fun hm => hn (hu.1 hm).2)]
    rfl
  · intro e he
    have hpn : e.port ≠ p.number := by
      intro hep
      have : e ∈ copiesTo p.number (runActs g (v.ruleActs eu none ae er) k).1 := by
        unfold copiesTo
        rw [List.mem_filter]; exact ⟨he, by simp [hep]⟩
      rw [hback] at this; simp at this
    refine ⟨hpn, ?_⟩
    rw [emits_shape hs] at he
    have : e.port ∈ T ∨ e.port ∈ U := by
      rcases List.mem_append.1 he with he | he
      · exact Or.inl ((mem_outputs_emits (by rw [h1]; exact hk.port) he).resolve_left hpn)
      · exact Or.inr ((mem_outputs_emits (by show (prePkt pre k).hdr fInPort = _; rw [h1]; exact hk.port) he).resolve_left hpn)
    rw [hs.eq]
    simp only [List.mem_append, List.mem_map]
    rcases this with hm | hm
    · exact Or.inl (Or.inr ⟨_, hm, rfl⟩)
    · refine Or.inr ?_
      rw [if_neg (by intro h0; rw [h0] at hm; simp at hm)]
      exact List.mem_cons_of_mem _ (List.mem_map.2 ⟨_, hm, rfl⟩)

theorem mem_ruleActs_output {v : FVlan} {eu ae er : Bool} {i : Option FPort} {n : Nat}
    (hm : .output n ∈ v.ruleActs eu i ae er) :
    (∃ q ∈ v.taggedFlood eu, .output n ∈ portOutputs i (v.excluded i ae er) q) ∨
      (∃ q ∈ v.untaggedFlood eu, .output n ∈ portOutputs i (v.excluded i ae er) q) := by
  obtain ⟨pre, T, U, hs, hT, hU⟩ := ruleActs_shape v eu i ae er
  rw [hs.eq] at hm
  simp only [List.mem_append, List.mem_map] at hm
  rcases hm with (hm | ⟨m, hm, he⟩) | hm
  · rcases hs.pre with h0 | h0 <;> rw [h0] at hm <;> simp at hm
  · have : m = n := by simpa using he
    exact Or.inl ((hT _).1 (this ▸ hm))
  · split at hm
    · simp at hm
    · rcases List.mem_cons.1 hm with hm | hm
      · simp at hm
      · obtain ⟨m, hm, he⟩ := List.mem_map.1 hm
        have : m = n := by simpa using he
        exact Or.inr ((hU _).1 (this ▸ hm))

/-- The rule of the whole VLAN, whatever port the packet came in on, is safe. -/
theorem vlan_flood_safe {v : FVlan} (h : WF v) {p : FPort} (hp : p ∈ v.ports) {eu : Bool} {k : Pkt} (hk : InVlan v p k)
    (g : Nat → Option (List (List Action))) : Safe v p k (runActs g (v.vlanActs eu) k).1 := by
  obtain ⟨hc1, hc2, hc3, hc4⟩ := vlan_copies h hp (eu := eu) (ae := false) (er := true) hk g
  have hel : ∀ q ∈ v.ports, q ≠ p → copiesTo q.number (runActs g (v.vlanActs eu) k).1 ≠ [] →
      Eligible v none false true q := by
    intro q hq hne hcn
    by_contra hn
    exact hcn (hc2 q hq hne (fun hx => hn hx.2))
  refine ⟨fun _ => hc3, ?_, ?_, ?_, ?_⟩
  · intro q hq
    by_cases hqp : q = p
    · subst hqp; exact Or.inl hc3
    · by_cases he : FloodMember v eu q ∧ Eligible v none false true q
      · exact Or.inr (hc1 q hq hqp he.1 he.2)
      · exact Or.inl (hc2 q hq hqp he)
  · intro e he
    obtain ⟨q, hq, hm | hm⟩ := vlan_outputs (mem_ruleActs_output (hc4 e he).2)
    · exact Or.inl ⟨q, hq, hm⟩
    · exact Or.inr ⟨q, hq, hm⟩
  · intro q hq r hr hqp hrp hl hqr hcq hcr
    have h1 := (hel q hq hqp hcq).lag hl
    have h2 := (hel r hr hrp hcr).lag (by rw [← hqr]; exact hl)
    obtain ⟨_, _, _, hs, hu, _⟩ := h1.1
    exact ⟨chosen_unique h1.1 h2.1 hqr, hs, hu⟩
  · intro q hq r hr hqp hrp h1 h2 h3 h4 hcq hcr
    have a1 := ((hel q hq hqp hcq).ext h1 h2).2.2 r hr h3 h4
    have a2 := ((hel r hr hrp hcr).ext h3 h4).2.2 q hq h1 h2
    exact h.eq_of_number hq hr (by omega)

theorem sameSet_iff {a b : List Nat} (hs : sameSet a b = true) (n : Nat) : n ∈ a ↔ n ∈ b := by
  unfold sameSet at hs
  simp only [Bool.and_eq_true, List.all_eq_true, List.contains_iff_mem] at hs
  exact ⟨fun hn => hs.1 n hn, fun hn => hs.2 n hn⟩

theorem mem_cleanup_ports {v : FVlan} {eu ae er : Bool} {i : Option FPort} {n : Nat} :
    n ∈ (outputNonOutput (v.ruleActs eu i ae er)).2.1 ↔ .output n ∈ v.ruleActs eu i ae er := by
  obtain ⟨pre, T, U, hs, hT, hU⟩ := ruleActs_shape v eu i ae er
  rw [(cleanup_shape hs).2.1, hs.eq]
  simp only [List.mem_append, List.mem_map, List.mem_filter]
  have hp : Action.output n ∉ pre := by
    rcases hs.pre with h0 | h0 <;> rw [h0] <;> simp
  by_cases hT : n ∈ T
  · simp [hT]
  · by_cases hU0 : U = []
    · subst hU0; simp [hT, hp]
    · simp [hT, hp, hU0]

/-- When the port's own rule is left out because it would output to the same ports as the VLAN's rule, the VLAN's rule
delivers. -/
theorem vlan_flood_delivers {v : FVlan} (h : WF v) {p : FPort} (hp : p ∈ v.ports) (hup : p.physUp = true) {eu er : Bool}
    {k : Pkt} (hk : InVlan v p k) (g : Nat → Option (List (List Action)))
    (hne : (v.portActs eu p false er).1 ≠ [])
    (hs : sameSet ((outputNonOutput (v.vlanActs eu)).2.1.filter (fun n => n != p.number)) (v.portActs eu p false er).2.1 = true) :
    Delivered v p eu false er k (runActs g (v.vlanActs eu) k).1 := by
  obtain ⟨hc1, hc2, hc3, hc4⟩ := vlan_copies h hp (eu := eu) (ae := false) (er := true) hk g
  have hport : (v.portActs eu p false er).2.1 = (outputNonOutput (v.ruleActs eu (some p) false (er && p.restricted))).2.1 := by
    unfold FVlan.portActs at hne ⊢
    rw [if_pos hup] at hne ⊢
    simp only at hne ⊢
    split
    · rename_i h0; rw [if_pos h0] at hne; exact absurd rfl hne
    · rfl
  have hiff : ∀ n, (.output n ∈ v.vlanActs eu ∧ n ≠ p.number) ↔ .output n ∈ v.ruleActs eu (some p) false (er && p.restricted) := by
    intro n
    have := sameSet_iff hs n
    rw [hport, mem_cleanup_ports, List.mem_filter] at this
    unfold FVlan.vlanActs at this
    rw [mem_cleanup_ports] at this
    simpa [FVlan.vlanActs] using this
  obtain ⟨pre, T, U, hsh, hT, hU⟩ := ruleActs_shape v eu (some p) false (er && p.restricted)
  obtain ⟨pre', T', U', hsh', hT', hU'⟩ := ruleActs_shape v eu none false true
  have hmem : ∀ {i : Option FPort} {ae er : Bool} {pre : List Action} {T U : List Nat},
      Shape (v.ruleActs eu i ae er) pre T U → ∀ n, .output n ∈ v.ruleActs eu i ae er ↔ n ∈ T ∨ n ∈ U := by
    intro i ae er pre T U hsh n
    rw [hsh.eq]
    have hp : Action.output n ∉ pre := by
      rcases hsh.pre with h0 | h0 <;> rw [h0] <;> simp
    by_cases hU0 : U = []
    · subst hU0; simp [hp]
    · simp [hp, hU0]
  have hdue : ∀ q ∈ v.ports, q ≠ p → (Due v p eu false er q ↔ FloodMember v eu q ∧ Eligible v none false true q) := by
    intro q hq hqp
    obtain ⟨ht, hu⟩ := due_iff h hp hq hqp hT hU
    obtain ⟨ht', hu'⟩ := vlan_mem_iff h hq hT' hU'
    have hnp : q.number ≠ p.number := fun he => hqp (h.eq_of_number hq hp he)
    have h1 := hiff q.number
    have h2 := hmem hsh q.number
    have h3 := hmem hsh' q.number
    unfold FVlan.vlanActs at h1
    constructor
    · intro hd
      have : q.number ∈ T ∨ q.number ∈ U := by
        by_cases hqt : q ∈ v.tagged
        · exact Or.inl (ht.2 ⟨hqt, hd⟩)
        · exact Or.inr (hu.2 ⟨hqt, hd⟩)
      rcases h3.1 (h1.2 (h2.2 this)).1 with hm | hm
      · exact (ht'.1 hm).2
      · exact (hu'.1 hm).2
    · intro hd
      have : q.number ∈ T' ∨ q.number ∈ U' := by
        by_cases hqt : q ∈ v.tagged
        · exact Or.inl (ht'.2 ⟨hqt, hd⟩)
        · exact Or.inr (hu'.2 ⟨hqt, hd⟩)
      rcases h2.1 (h1.1 ⟨h3.2 this, hnp⟩) with hm | hm
      · exact (ht.1 hm).2
      · exact (hu.1 hm).2
  refine ⟨?_, ?_, ?_, fun _ => hc3, ?_⟩
  · intro q hd
    obtain ⟨h1, h2⟩ := (hdue q hd.1 hd.2.1).1 hd
    exact hc1 q hd.1 hd.2.1 h1 h2
  · intro q hq hqp hnd
    exact hc2 q hq hqp (fun hx => hnd ((hdue q hq hqp).2 hx))
  · intro hh hf
    exfalso
    have hTs : ∀ x ∈ v.taggedFlood eu, x ∈ v.ports := fun x hx => mem_ports.2 (Or.inl (taggedFlood_sub.1 hx).1)
    have hUs : ∀ x ∈ v.untaggedFlood eu, x ∈ v.ports := fun x hx => mem_ports.2 (Or.inr (untaggedFlood_sub.1 hx).1)
    have hin : portInPort ∈ T ∨ portInPort ∈ U := by
      rcases mem_ports.1 hp with hpt | hpu
      · exact Or.inl ((hT _).2 ((inPort_output h hp hTs).2 ⟨taggedFlood_sub.2 ⟨hpt, hf.2⟩, hh⟩))
      · exact Or.inr ((hU _).2 ((inPort_output h hp hUs).2 ⟨untaggedFlood_sub.2 ⟨hpu, hf.2⟩, hh⟩))
    exact vlan_no_inPort h (mem_ruleActs_output ((hiff _).2 ((hmem hsh _).2 hin)).1)
  · intro e he
    obtain ⟨hep, ho⟩ := hc4 e he
    have ho' := mem_ruleActs_output ((hiff _).1 ⟨ho, hep⟩)
    obtain ⟨q, hq, hqf, ho''⟩ : ∃ q, q ∈ v.ports ∧ FloodMember v eu q ∧
        Action.output e.port ∈ portOutputs (some p) (v.excluded (some p) false (er && p.restricted)) q := by
      rcases ho' with ⟨q, hq, ho⟩ | ⟨q, hq, ho⟩
      · exact ⟨q, mem_ports.2 (Or.inl (taggedFlood_sub.1 hq).1), ⟨mem_ports.2 (Or.inl (taggedFlood_sub.1 hq).1), (taggedFlood_sub.1 hq).2⟩, ho⟩
      · exact ⟨q, mem_ports.2 (Or.inr (untaggedFlood_sub.1 hq).1), ⟨mem_ports.2 (Or.inr (untaggedFlood_sub.1 hq).1), (untaggedFlood_sub.1 hq).2⟩, ho⟩
    unfold portOutputs at ho''
    split at ho''
    · split at ho''
      · simp at ho''
        exact absurd (mem_ruleActs_output ho) (by rw [ho'']; exact vlan_no_inPort h)
      · simp at ho''
    · rename_i hni
      split at ho''
      · simp at ho''
      · rename_i hnx
        rcases List.mem_cons.1 ho'' with hx | hx
        · exact Or.inl ⟨q, hq, by simpa using hx⟩
        · split at hx
          · obtain ⟨m, hm, he⟩ := List.mem_map.1 hx
            have hme : m = e.port := by simpa using he
            exact Or.inr ⟨q, ⟨hq, (isIn_some h hp hq).1 (by simpa using hni), hqf,
              (not_excluded_iff h hq).1 (by simpa using hnx)⟩, hme ▸ hm⟩
          · simp at hx

end Faucet.Flood
