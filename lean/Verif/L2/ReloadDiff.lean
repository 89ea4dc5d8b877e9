import Verif.L2.ReloadSpec
import Verif.L2.UInv

/-! # One standalone switch: what is the same in both configurations -/

namespace Faucet.L2
open Faucet.OF
open Faucet.Learn (iInPort iEthDst iEthSrc iVlan host CInv)

variable {c c' : Cfg} {sec : Sections} {ch : Changes}

theorem mem_nums {n : Nat} : n ∈ c.nums ↔ ∃ p ∈ c.ports, p.number = n := by simp [Cfg.nums]

theorem mem_vidList {n : Nat} : n ∈ c.vidList ↔ ∃ v ∈ c.vlans, v.vid = n := by simp [Cfg.vidList]

theorem mem_vids {p : LPort} {vid : Nat} : vid ∈ p.vids ↔ p.In vid := by
  unfold LPort.vids LPort.In
  simp [Option.mem_toList]

theorem portVids_of (hw : c.WF) {p : LPort} (hp : p ∈ c.ports) : c.portVids p.number = p.vids := by
  unfold Cfg.portVids; rw [find_of_mem hw hp]

theorem mirrors_of (hw : c.WF) {p : LPort} (hp : p ∈ c.ports) : c.mirrors p.number = p.mirror := by
  unfold Cfg.mirrors; rw [find_of_mem hw hp]

theorem member_iff (hw : c.WF) {p : LPort} (hp : p ∈ c.ports) {vid : Nat} : c.Member vid p.number ↔ p.In vid := by
  constructor
  · rintro ⟨q, hq, hn, hin⟩
    rw [← port_inj hw hq hp hn]; exact hin
  · intro h; exact ⟨p, hp, rfl, h⟩

/-! ## Tables -/

theorem SameDp.tables (h : SameDp c c') (hb : c.Basic) (hb' : c'.Basic) :
    c'.tc = c.tc ∧ c'.ts = c.ts ∧ c'.td = c.td ∧ c'.tf = c.tf := by
  obtain ⟨h1, h2, h3, h4⟩ := hb.ids
  obtain ⟨g1, g2, g3, g4⟩ := hb'.ids
  have hk : c'.useClassification = c.useClassification := by rw [h]
  have hr : c'.ipv4 = c.ipv4 := by rw [h]
  rw [hk, hr] at g1 g2 g3 g4
  exact ⟨g1.trans h1.symm, g2.trans h2.symm, g3.trans h3.symm, g4.trans h4.symm⟩

theorem SameDp.routing (h : SameDp c c') (hb : c.Basic) (hb' : c'.Basic) : c'.tfib = c.tfib ∧ c'.tvip = c.tvip := by
  have hk : c'.useClassification = c.useClassification := by rw [h]
  have hr : c'.ipv4 = c.ipv4 := by rw [h]
  constructor <;> simp [Cfg.tfib, Cfg.tvip, Cfg.table, hb.conf, hb'.conf, hk, hr]

theorem SameDp.rows (h : SameDp c c') : c'.flood.rows = c.flood.rows := by
  have : c'.restrictedBcast = c.restrictedBcast := by rw [h]
  unfold Flood.FCfg.rows Cfg.flood
  simp only [this]

/-! ## Ports and VLANs -/

theorem vlanChanged_mem {vid : Nat} : vid ∈ vlanChanged c c' sec ↔
    (∃ v' ∈ c'.vlans, v'.vid = vid) ∧ ((∀ v ∈ c.vlans, v.vid ≠ vid) ∨ sec.vlan vid = false) := by
  unfold vlanChanged
  rw [List.mem_filter, mem_vidList]
  refine and_congr_right fun _ => ?_
  by_cases hm : vid ∈ c.vidList
  · have h0 : ¬ ∀ v ∈ c.vlans, v.vid ≠ vid := by
      obtain ⟨v, hv, he⟩ := mem_vidList.1 hm
      exact fun h => h v hv he
    simp [hm, h0]
  · have h0 : ∀ v ∈ c.vlans, v.vid ≠ vid := fun v hv he => hm (mem_vidList.2 ⟨v, hv, he⟩)
    simp only [Bool.not_eq_true', Bool.and_eq_false_iff]
    exact ⟨fun _ => Or.inl h0, fun _ => Or.inl (by simpa using hm)⟩

/-- A port that both configurations have and that is not among the changed ones is the same in both. -/
theorem port_same (hw : c.WF) (h : Reloadable c c' sec) (hch : (changes c c' sec).Same ch) {p : LPort} (hp : p ∈ c.ports)
    (hd : p.number ∉ ch.delP) (hc : p.number ∉ ch.chP) : p ∈ c'.ports := by
  have hn' : p.number ∈ c'.nums := by
    by_contra hno
    refine hd ((hch.delP _).1 ?_)
    show p.number ∈ portDeleted c c'
    unfold portDeleted
    rw [List.mem_filter]
    exact ⟨mem_nums.2 ⟨p, hp, rfl⟩, by simpa using hno⟩
  have hn : p.number ∈ c.nums := mem_nums.2 ⟨p, hp, rfl⟩
  obtain ⟨p', hp', hnum⟩ := mem_nums.1 hn'
  have hc : p.number ∉ portChanged c c' sec ++ (portSame c c' sec).filter (fun n => c.mirrors n != c'.mirrors n) := fun hx => hc ((hch.chP _).1 hx)
  simp only [portChanged, List.mem_append, List.mem_filter, not_or, not_and, Bool.not_eq_true] at hc
  obtain ⟨⟨h1, h2⟩, h3⟩ := hc
  have hsec : sec.port p.number = true := by simpa [hn] using h1 hn'
  have hmir : c.mirrors p.number = c'.mirrors p.number := by
    have := h3 (by unfold portSame; rw [List.mem_filter]; exact ⟨hn', by simp [hn, hsec]⟩)
    simpa using this
  have hmir : p.mirror = p'.mirror := by rw [← mirrors_of hw hp, hmir, ← hnum, mirrors_of h.wf hp']
  rcases h.sections.port p hp p' hp' hnum.symm hsec with he | ⟨v', hv', hin, hx⟩
  · rw [← hmir] at he
    rw [show p = p' from he.symm]; exact hp'
  · exfalso
    have h2 := h2 hn'
    rw [List.any_eq_false] at h2
    rw [← hnum, portVids_of h.wf hp'] at h2
    refine h2 v'.vid (mem_vids.2 hin) ?_
    rw [List.contains_iff_mem, vlanChanged_mem]
    exact ⟨⟨v', hv', rfl⟩, hx⟩

/-- A touched VLAN is among the changed ones. -/
theorem touched_changed (hw : c.WF) (h : Reloadable c c' sec) (hch : (changes c c' sec).Same ch) {vid : Nat} {v' : LVlan} (hv' : v' ∈ c'.vlans)
    (hvid : v'.vid = vid) (ht : Touched c c' sec vid) : vid ∈ ch.chV := by
  refine (hch.chV _).1 ?_
  show vid ∈ (vlanTouched c c' sec).filter _
  rw [List.mem_filter]
  refine ⟨?_, ?_⟩
  swap
  · simp only [Bool.not_eq_true', vlanDeleted]
    rw [← Bool.not_eq_true, List.contains_iff_mem, List.mem_filter]
    rintro ⟨-, hx⟩
    simp only [Bool.not_eq_true'] at hx
    rw [← Bool.not_eq_true, List.contains_iff_mem] at hx
    exact hx (mem_vidList.2 ⟨v', hv', hvid⟩)
  simp only [vlanTouched, List.mem_append, List.mem_flatMap]
  rcases ht with ht | ⟨n, hn⟩
  · exact Or.inl (Or.inl (Or.inl (vlanChanged_mem.2 ⟨⟨v', hv', hvid⟩, Or.inr ht⟩)))
  by_cases ho : ∃ p ∈ c.ports, p.number = n
  · obtain ⟨p, hp, rfl⟩ := ho
    by_cases hd : ∃ p' ∈ c'.ports, p'.number = p.number
    · obtain ⟨p', hp', hnum⟩ := hd
      rw [member_iff hw hp, ← hnum, member_iff h.wf hp'] at hn
      refine Or.inl (Or.inl (Or.inr ⟨p.number, ?_, ?_⟩))
      · rw [List.mem_filter]
        refine ⟨?_, by simpa using mem_nums.2 ⟨p, hp, rfl⟩⟩
        have hn1 : p.number ∈ c'.nums := mem_nums.2 ⟨p', hp', hnum⟩
        have hn2 : p.number ∈ c.nums := mem_nums.2 ⟨p, hp, rfl⟩
        simp only [portChanged, List.mem_append, List.mem_filter]
        cases hsec : sec.port p.number with
        | false => exact Or.inl ⟨hn1, by simp [hn2]⟩
        | true =>
          right
          refine ⟨hn1, ?_⟩
          rcases h.sections.port p hp p' hp' hnum.symm hsec with he | ⟨w, hw', hin, hx⟩
          · exfalso
            apply hn
            rw [he]
            exact Iff.rfl
          · rw [List.any_eq_true]
            refine ⟨w.vid, ?_, ?_⟩
            · rw [← hnum, portVids_of h.wf hp']; exact mem_vids.2 hin
            · rw [List.contains_iff_mem, vlanChanged_mem]
              exact ⟨⟨w, hw', rfl⟩, hx⟩
      · unfold moved
        rw [List.mem_append, List.mem_filter, List.mem_filter, portVids_of hw hp]
        rw [← hnum, portVids_of h.wf hp']
        simp only [Bool.not_eq_true', ← Bool.not_eq_true, List.contains_iff_mem, mem_vids]
        tauto
    · refine Or.inl (Or.inr ⟨p.number, ?_, ?_⟩)
      · unfold portDeleted
        rw [List.mem_filter]
        refine ⟨mem_nums.2 ⟨p, hp, rfl⟩, ?_⟩
        simp only [Bool.not_eq_true', ← Bool.not_eq_true, List.contains_iff_mem, mem_nums]
        exact hd
      · rw [portVids_of hw hp, mem_vids]
        by_contra hin
        apply hn
        rw [member_iff hw hp]
        exact ⟨fun h => absurd h hin, fun ⟨q, hq, hqn, _⟩ => absurd ⟨q, hq, hqn⟩ hd⟩
  · by_cases hd : ∃ p' ∈ c'.ports, p'.number = n
    · obtain ⟨p', hp', rfl⟩ := hd
      refine Or.inr ⟨p'.number, ?_, ?_⟩
      · unfold portAdded
        rw [List.mem_filter]
        refine ⟨mem_nums.2 ⟨p', hp', rfl⟩, ?_⟩
        simp only [Bool.not_eq_true', ← Bool.not_eq_true, List.contains_iff_mem, mem_nums]
        exact ho
      · rw [portVids_of h.wf hp', mem_vids]
        by_contra hin
        apply hn
        rw [member_iff h.wf hp']
        exact ⟨fun ⟨q, hq, hqn, _⟩ => absurd ⟨q, hq, hqn⟩ ho, fun h => absurd h hin⟩
    · exfalso
      apply hn
      exact ⟨fun ⟨q, hq, hqn, _⟩ => absurd ⟨q, hq, hqn⟩ ho, fun ⟨q, hq, hqn, _⟩ => absurd ⟨q, hq, hqn⟩ hd⟩

/-- An added VLAN is among the changed ones. -/
theorem new_changed (h : Reloadable c c' sec) (hch : (changes c c' sec).Same ch) {v' : LVlan} (hv' : v' ∈ c'.vlans)
    (hn : ∀ v ∈ c.vlans, v.vid ≠ v'.vid) : v'.vid ∈ ch.chV := by
  refine (hch.chV _).1 ?_
  show _ ∈ (vlanTouched c c' sec).filter _
  rw [List.mem_filter]
  refine ⟨?_, ?_⟩
  · simp only [vlanTouched, List.mem_append]
    exact Or.inl (Or.inl (Or.inl (vlanChanged_mem.2 ⟨⟨v', hv', rfl⟩, Or.inl hn⟩)))
  · simp only [Bool.not_eq_true', vlanDeleted]
    rw [← Bool.not_eq_true, List.contains_iff_mem, List.mem_filter]
    rintro ⟨-, hx⟩
    simp only [Bool.not_eq_true'] at hx
    rw [← Bool.not_eq_true, List.contains_iff_mem] at hx
    exact hx (mem_vidList.2 ⟨v', hv', rfl⟩)

/-- A VLAN that is not among the changed ones is the same in both configurations. -/
theorem vlan_same (hw : c.WF) (h : Reloadable c c' sec) (hch : (changes c c' sec).Same ch) {v' : LVlan} (hv' : v' ∈ c'.vlans)
    (hc : v'.vid ∉ ch.chV) : v' ∈ c.vlans ∧ sec.vlan v'.vid = true ∧ ∀ n, c.Member v'.vid n ↔ c'.Member v'.vid n := by
  have ht : ¬ Touched c c' sec v'.vid := fun ht => hc (touched_changed hw h hch hv' rfl ht)
  unfold Touched at ht
  simp only [not_or, not_exists, not_not, Bool.not_eq_false] at ht
  refine ⟨?_, ht.1, ht.2⟩
  by_cases hn : ∃ v ∈ c.vlans, v.vid = v'.vid
  · obtain ⟨v, hv, he⟩ := hn
    rw [h.sections.vlan v hv v' hv' he (by rw [he]; exact ht.1)]
    exact hv
  · exact absurd (new_changed h hch hv' (fun v hv he => hn ⟨v, hv, he⟩)) hc

/-! ## Flooding -/

/-- What flooding to a port depends on. -/
def outs (i : Option (Nat × List Nat)) (x : Nat × List Nat) : List Action :=
  match i with
  | none => .output x.1 :: x.2.map .output
  | some y => if x.1 = y.1 then [] else .output x.1 :: (if Flood.sameSet y.2 x.2 then [] else x.2.map .output)

def LPort.key (p : LPort) : Nat × List Nat := (p.number, p.mirror)

theorem outs_eq (hb : c.Basic) (d : Nat → Dyn) {p : LPort} (hp : p ∈ c.ports) (i : Option LPort) :
    Flood.portOutputs (i.map (fport d)) [] (fport d p) = outs (i.map LPort.key) p.key := by
  have hh : (fport d p).hairpin = false := (hb.hairpin p hp).1
  cases i with
  | none => simp [Flood.portOutputs, Flood.isIn, Flood.hasPort, Flood.addMirror, outs, fport, LPort.key]
  | some q =>
    have hl : Flood.portOutputs ((some q).map (fport d)) [] (fport d p) =
        if p.number = q.number then [] else .output p.number :: (if (!Flood.sameSet q.mirror p.mirror) = true then p.mirror.map .output else []) := by
      unfold Flood.portOutputs
      rw [hh]
      have h1 : Flood.isIn ((some q).map (fport d)) (fport d p) = (p.number == q.number) := rfl
      have h2 : Flood.hasPort [] (fport d p) = false := rfl
      have h3 : Flood.addMirror ((some q).map (fport d)) (fport d p) = !Flood.sameSet q.mirror p.mirror := rfl
      rw [h1, h2, h3]
      simp only [beq_iff_eq, Bool.false_eq_true, if_false]
      rfl
    have hr : outs ((some q).map LPort.key) p.key =
        if p.number = q.number then [] else .output p.number :: (if Flood.sameSet q.mirror p.mirror then [] else p.mirror.map .output) := rfl
    rw [hl, hr]
    by_cases he : p.number = q.number
    · rw [if_pos he, if_pos he]
    · rw [if_neg he, if_neg he]
      cases Flood.sameSet q.mirror p.mirror <;> simp

/-- Actions of flood rules, from what they depend on. -/
def actsOf (t n : List (Nat × List Nat)) (i : Option (Nat × List Nat)) : List Action :=
  let a := Actions.dedupeOutputs (t.flatMap (outs i))
  let b := Actions.dedupeOutputs (n.flatMap (outs i))
  a ++ (if b = [] then [] else .popVlan :: b)

def Cfg.tKeys (c : Cfg) (vid : Nat) : List (Nat × List Nat) := (c.ports.filter (fun p => p.tagged.contains vid)).map LPort.key
def Cfg.nKeys (c : Cfg) (vid : Nat) : List (Nat × List Nat) := (c.ports.filter (fun p => p.native == some vid)).map LPort.key

theorem flatMap_outs (hb : c.Basic) (d : Nat → Dyn) (i : Option LPort) (f : LPort → Bool) :
    ((c.ports.filter f).map (fport d)).flatMap (Flood.portOutputs (i.map (fport d)) []) = ((c.ports.filter f).map LPort.key).flatMap (outs (i.map LPort.key)) := by
  rw [List.flatMap_map, List.flatMap_map]
  apply List.flatMap_congr
  intro p hp
  exact outs_eq hb d (List.mem_filter.1 hp).1 i

theorem ruleActs_eq (hb : c.Basic) (d : Nat → Dyn) (v : LVlan) (eu ae er : Bool) (i : Option LPort) (hi : ∀ p, i = some p → p ∈ c.ports) :
    (c.fvlan d v).ruleActs eu (i.map (fport d)) ae er = actsOf (c.tKeys v.vid) (c.nKeys v.vid) (i.map LPort.key) := by
  have hport : ∀ q ∈ (c.fvlan d v).ports, q.lacp = 0 ∧ q.external = false ∧ q.restricted = false := by
    intro q hq
    obtain ⟨p, hp, -, rfl⟩ := mem_fvlan_ports hq
    exact ⟨hb.lacp p hp, (hb.loop p hp).2, hb.restricted p hp⟩
  have hlacp : (c.fvlan d v).lacpPorts = [] := by
    unfold Flood.FVlan.lacpPorts
    rw [List.filter_eq_nil_iff]
    intro q hq
    simp [(hport q hq).1]
  have hext : (c.fvlan d v).externals = [] := by
    unfold Flood.FVlan.externals
    rw [List.filter_eq_nil_iff]
    intro q hq
    simp [(hport q hq).2.1]
  have hres : (c.fvlan d v).ports.filter (fun p => p.restricted) = [] := by
    rw [List.filter_eq_nil_iff]
    intro q hq
    simp [(hport q hq).2.2]
  have hnat : (c.fvlan d v).excludeNative = [] := by
    unfold Flood.FVlan.excludeNative
    rw [List.filter_eq_nil_iff]
    intro q hq
    obtain ⟨p, hp, -, rfl⟩ := mem_fvlan_ports (c := c) (d := d) (v := v) (q := q) (by simp [Flood.FVlan.ports, hq])
    simp [fport]
  have hsame : (c.fvlan d v).sameLag (i.map (fport d)) = [] := by
    cases i with
    | none => rfl
    | some p =>
      have : (fport d p).lacp = 0 := hb.lacp p (hi p rfl)
      simp [Flood.FVlan.sameLag, this]
  have hexcl : (c.fvlan d v).excluded (i.map (fport d)) ae er = [] := by
    unfold Flood.FVlan.excluded Flood.FVlan.excludedLag Flood.FVlan.lagIds Flood.FVlan.excludedExternal Flood.FVlan.externalsUp
    rw [hsame, hlacp, hnat, hext, hres]
    simp [Actions.mkSet, Flood.canonical, isort]
  have hpf : ∀ l : List LPort, (∀ p ∈ l, p ∈ c.ports) → Flood.floodPorts (l.map (fport d)) eu = l.map (fport d) := by
    intro l hl
    unfold Flood.floodPorts
    split
    · rw [List.filter_eq_self]
      intro q hq
      obtain ⟨p, hp, rfl⟩ := List.mem_map.1 hq
      exact hb.portUnicast p (hl p hp)
    · rfl
  unfold Flood.FVlan.ruleActs Flood.FVlan.localActs
  rw [hexcl, hext]
  simp only [ne_eq, not_true_eq_false, false_and, if_false, List.nil_append]
  unfold Flood.floodOutputs Flood.floodUntagged Flood.floodTagged
  have ht : (c.fvlan d v).taggedFlood eu = (c.ports.filter (fun p => p.tagged.contains v.vid)).map (fport d) :=
    hpf _ (fun p hp => (List.mem_filter.1 hp).1)
  have hn : (c.fvlan d v).untaggedFlood eu = (c.ports.filter (fun p => p.native == some v.vid)).map (fport d) := by
    unfold Flood.FVlan.untaggedFlood
    show Flood.floodPorts (_ ++ []) eu = _
    rw [List.append_nil]
    exact hpf _ (fun p hp => (List.mem_filter.1 hp).1)
  rw [ht, hn, flatMap_outs hb, flatMap_outs hb]
  rfl

theorem vlanActs_eq (hb : c.Basic) (d : Nat → Dyn) (v : LVlan) (eu : Bool) :
    (c.fvlan d v).vlanActs eu = actsOf (c.tKeys v.vid) (c.nKeys v.vid) none :=
  ruleActs_eq hb d v eu false true none (fun p h => by cases h)

theorem portActs_eq (hb : c.Basic) (d : Nat → Dyn) (v : LVlan) (eu er : Bool) {p : LPort} (hp : p ∈ c.ports) (hu : (d p.number).physUp = true) :
    ((c.fvlan d v).portActs eu (fport d p) false er).1 =
      (let r := Actions.outputNonOutput (actsOf (c.tKeys v.vid) (c.nKeys v.vid) (some p.key)); if r.2.1 = [] then [] else r.1) := by
  unfold Flood.FVlan.portActs
  have hu : (fport d p).physUp = true := hu
  rw [if_pos hu]
  have := ruleActs_eq hb d v eu false (er && (fport d p).restricted) (some p) (fun q h => by cases h; exact hp)
  simp only [Option.map_some] at this
  rw [this]
  simp only
  split <;> rfl

/-- Two lists in strict order with the same elements. -/
theorem sorted_ext {l l' : List (Nat × List Nat)} (h : l.Pairwise (fun a b => a.1 < b.1)) (h' : l'.Pairwise (fun a b => a.1 < b.1))
    (he : ∀ x, x ∈ l ↔ x ∈ l') : l = l' := by
  induction l generalizing l' with
  | nil =>
    cases l' with
    | nil => rfl
    | cons a l' => exact absurd ((he a).2 List.mem_cons_self) (by simp)
  | cons a l ih =>
    cases l' with
    | nil => exact absurd ((he a).1 List.mem_cons_self) (by simp)
    | cons b l' =>
      have h1 := List.pairwise_cons.1 h
      have h2 := List.pairwise_cons.1 h'
      have hab : a = b := by
        by_contra hne
        have ha : a ∈ l' := by
          rcases List.mem_cons.1 ((he a).1 List.mem_cons_self) with h | h
          · exact absurd h hne
          · exact h
        have hb : b ∈ l := by
          rcases List.mem_cons.1 ((he b).2 List.mem_cons_self) with h | h
          · exact absurd h.symm hne
          · exact h
        have := h1.1 b hb
        have := h2.1 a ha
        omega
      subst hab
      congr 1
      refine ih h1.2 h2.2 ?_
      intro x
      constructor
      · intro hx
        rcases List.mem_cons.1 ((he x).1 (List.mem_cons_of_mem _ hx)) with h | h
        · have := h1.1 x hx; rw [h] at this; omega
        · exact h
      · intro hx
        rcases List.mem_cons.1 ((he x).2 (List.mem_cons_of_mem _ hx)) with h | h
        · have := h2.1 x hx; rw [h] at this; omega
        · exact h

theorem keys_sorted (ho : c.InOrder) (f : LPort → Bool) : ((c.ports.filter f).map LPort.key).Pairwise (fun a b => a.1 < b.1) := by
  rw [List.pairwise_map]
  exact (List.Pairwise.filter f ho)

/-- Flooding to a VLAN that is not among the changed ones is the same in both configurations. -/
theorem keys_same (hw : c.WF) (h : Reloadable c c' sec) (hch : (changes c c' sec).Same ch) {v' : LVlan} (hv' : v' ∈ c'.vlans)
    (hc : v'.vid ∉ ch.chV) : c'.tKeys v'.vid = c.tKeys v'.vid ∧ c'.nKeys v'.vid = c.nKeys v'.vid ∧
      ∀ p ∈ c.ports, ∀ p' ∈ c'.ports, p.number = p'.number → p.In v'.vid → p'.key = p.key := by
  obtain ⟨hv, hsec, hmem⟩ := vlan_same hw h hch hv' hc
  have hst : ∀ p ∈ c.ports, ∀ p' ∈ c'.ports, p.number = p'.number → p.In v'.vid → p'.In v'.vid →
      (p.native = some v'.vid ↔ p'.native = some v'.vid) ∧ p.mirror = p'.mirror := by
    intro p hp p' hp' hn h1 h2
    rcases h.stays p hp p' hp' hn v'.vid h1 h2 with ht | ht
    · exact absurd (touched_changed hw h hch hv' rfl ht) hc
    · exact ht
  have hto : ∀ p ∈ c.ports, p.In v'.vid → ∃ p' ∈ c'.ports, p'.number = p.number ∧ p'.In v'.vid :=
    fun p hp hin => (hmem p.number).1 ⟨p, hp, rfl, hin⟩
  have hfrom : ∀ p' ∈ c'.ports, p'.In v'.vid → ∃ p ∈ c.ports, p.number = p'.number ∧ p.In v'.vid :=
    fun p hp hin => (hmem p.number).2 ⟨p, hp, rfl, hin⟩
  have htag : ∀ (x : Cfg), x.WF → ∀ p ∈ x.ports, p.In v'.vid → (v'.vid ∈ p.tagged ↔ ¬ p.native = some v'.vid) := by
    intro x hx p hp hin
    constructor
    · exact fun h1 h2 => hx.once p hp _ h2 h1
    · intro h1
      rcases hin with hin | hin
      · exact absurd hin h1
      · exact hin
  have hkey : ∀ p ∈ c.ports, ∀ p' ∈ c'.ports, p.number = p'.number → p.In v'.vid → p'.In v'.vid → p'.key = p.key := by
    intro p hp p' hp' hn h1 h2
    unfold LPort.key
    rw [hn, (hst p hp p' hp' hn h1 h2).2]
  refine ⟨sorted_ext (keys_sorted h.order.2 _) (keys_sorted h.order.1 _) ?_, sorted_ext (keys_sorted h.order.2 _) (keys_sorted h.order.1 _) ?_, ?_⟩
  · intro x
    simp only [Cfg.tKeys, List.mem_map, List.mem_filter, List.contains_iff_mem]
    constructor
    · rintro ⟨p', ⟨hp', ht⟩, rfl⟩
      obtain ⟨p, hp, hn, hin⟩ := hfrom p' hp' (Or.inr ht)
      refine ⟨p, ⟨hp, ?_⟩, (hkey p hp p' hp' hn hin (Or.inr ht)).symm⟩
      rw [htag c hw p hp hin, (hst p hp p' hp' hn hin (Or.inr ht)).1]
      exact (htag c' h.wf p' hp' (Or.inr ht)).1 ht
    · rintro ⟨p, ⟨hp, ht⟩, rfl⟩
      obtain ⟨p', hp', hn, hin⟩ := hto p hp (Or.inr ht)
      refine ⟨p', ⟨hp', ?_⟩, hkey p hp p' hp' hn.symm (Or.inr ht) hin⟩
      rw [htag c' h.wf p' hp' hin, ← (hst p hp p' hp' hn.symm (Or.inr ht) hin).1]
      exact (htag c hw p hp (Or.inr ht)).1 ht
  · intro x
    simp only [Cfg.nKeys, List.mem_map, List.mem_filter, beq_iff_eq]
    constructor
    · rintro ⟨p', ⟨hp', ht⟩, rfl⟩
      obtain ⟨p, hp, hn, hin⟩ := hfrom p' hp' (Or.inl ht)
      exact ⟨p, ⟨hp, (hst p hp p' hp' hn hin (Or.inl ht)).1.2 ht⟩, (hkey p hp p' hp' hn hin (Or.inl ht)).symm⟩
    · rintro ⟨p, ⟨hp, ht⟩, rfl⟩
      obtain ⟨p', hp', hn, hin⟩ := hto p hp (Or.inl ht)
      exact ⟨p', ⟨hp', (hst p hp p' hp' hn.symm (Or.inl ht) hin).1.1 ht⟩, hkey p hp p' hp' hn.symm (Or.inl ht) hin⟩
  · intro p hp p' hp' hn h1
    obtain ⟨q', hq', hn', hin⟩ := hto p hp h1
    obtain rfl := port_inj h.wf hq' hp' (hn'.trans hn)
    exact hkey p hp q' hq' hn h1 hin

end Faucet.L2
