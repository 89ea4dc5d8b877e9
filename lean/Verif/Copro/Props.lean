import Verif.Copro.Model

/-!
# Coprocessor ports: C79
-/

namespace Faucet.Copro
open Faucet.OF Faucet.FlowReorder

/-- The flows of the `copro` table. -/
def Holds (c : Cfg) (seen : List Nat) (t : Slot) (b : Body) : Prop :=
  (t = (missRule c).slot ∧ b = (missRule c).body) ∨
  ∃ jb ∈ c.copro, jb.1 ∈ seen ∧ ∃ n ∈ c.ports, t = (outRule c jb.2 n).slot ∧ b = (outRule c jb.2 n).body

/-- The rules for coprocessors are there, and no others in their table. -/
structure Inv (c : Cfg) (s : St) : Prop where
  cfg : s.cfg = c
  table : ∀ t b, t.table = c.tc → (s.sw.flows t = some b ↔ Holds c s.seen t b)
  entry : ∀ jb ∈ c.copro, jb.1 ∈ s.seen → s.sw.flows (vlanRule c jb.1).slot = some (vlanRule c jb.1).body

theorem vid_inj {a b : Nat} (ha : a < 4096) (hb : b < 4096) (h : vidPresent a = vidPresent b) : a = b := by
  have key : ∀ x : Nat, x < 4096 → vidPresent x = x + 4096 := by
    intro x hx
    unfold vidPresent vidPresentBit
    have := Nat.two_pow_add_eq_or_of_lt (i := 12) (b := x) (by simpa using hx) 1
    rw [Nat.or_comm]
    simpa [Nat.add_comm] using this.symm
  rw [key a ha, key b hb] at h
  omega

theorem aside_flows {c : Cfg} {ms : List OfMsg} (h : Aside c ms) (sw : Switch) {t : Slot}
    (ht : t.table = c.tc ∨ (t.table = c.tv ∧ t.priority = c.low ∧ ∃ jb ∈ c.copro, t.items = [⟨fInPort, jb.1, none⟩])) :
    (sw.execAll ms).flows t = sw.flows t := by
  induction ms generalizing sw with
  | nil => rfl
  | cons m ms ih =>
    have he : sw.execAll (m :: ms) = (sw.exec m).execAll ms := rfl
    rw [he, ih (fun m' hm' => h m' (List.mem_cons_of_mem _ hm'))]
    exact h m List.mem_cons_self t _ ht

/-- The messages for some coprocessor ports. -/
theorem mem_adds {c : Cfg} {l : List (Nat × Nat)} {m : OfMsg} (h : m ∈ l.flatMap (addPort c)) :
    ∃ jb ∈ l, m = .flow (vlanRule c jb.1) ∨ m = .flow (srcRule c jb.1) ∨ ∃ n ∈ c.ports, m = .flow (outRule c jb.2 n) := by
  obtain ⟨jb, hj, hm⟩ := List.mem_flatMap.1 h
  refine ⟨jb, hj, ?_⟩
  rcases List.mem_cons.1 hm with h | hm
  · exact Or.inl h
  · rcases List.mem_cons.1 hm with h | hm
    · exact Or.inr (Or.inl h)
    · obtain ⟨n, hn, rfl⟩ := List.mem_map.1 hm
      exact Or.inr (Or.inr ⟨n, hn, rfl⟩)

theorem adds_quiet {c : Cfg} {l : List (Nat × Nat)} : ∀ m ∈ l.flatMap (addPort c), isDeletion m = false := by
  intro m hm
  obtain ⟨jb, _, h | h | ⟨n, _, h⟩⟩ := mem_adds hm <;> rw [h] <;> rfl

theorem adds_plain {c : Cfg} {l : List (Nat × Nat)} : PlainAdds (l.flatMap (addPort c)) := by
  intro f hf hc
  obtain ⟨jb, _, h | h | ⟨n, _, h⟩⟩ := mem_adds hf <;> cases h <;> cases hc

/-- What the messages for some coprocessor ports do to the `copro` table and to the rules that lead there. -/
theorem adds_flows {c : Cfg} (hc : Valid c) {seen js : List Nat} {l : List (Nat × Nat)} {sw : Switch}
    (hl : ∀ jb ∈ l, jb ∈ c.copro) (hsub : ∀ jb ∈ l, jb.1 ∈ js) (hseen : ∀ x ∈ seen, x ∈ js)
    (hnew : ∀ jb ∈ c.copro, jb.1 ∈ js → jb.1 ∈ seen ∨ jb ∈ l)
    (ht : ∀ t b, t.table = c.tc → (sw.flows t = some b ↔ Holds c seen t b))
    (he : ∀ jb ∈ c.copro, jb.1 ∈ seen → sw.flows (vlanRule c jb.1).slot = some (vlanRule c jb.1).body) :
    (∀ t b, t.table = c.tc → ((sw.execAll (l.flatMap (addPort c))).flows t = some b ↔ Holds c js t b)) ∧
    (∀ jb ∈ c.copro, jb.1 ∈ js → (sw.execAll (l.flatMap (addPort c))).flows (vlanRule c jb.1).slot = some (vlanRule c jb.1).body) := by
  -- rules for output with the same place are the same
  have huniq : ∀ jb ∈ c.copro, ∀ jb' ∈ c.copro, ∀ n ∈ c.ports, ∀ n' ∈ c.ports,
      (outRule c jb.2 n).slot = (outRule c jb'.2 n').slot → n = n' := by
    intro jb hjb jb' hjb' n hn n' hn' heq
    have h1 : vidPresent (jb.2 + n) = vidPresent (jb'.2 + n') := by
      simp only [outRule, FlowMod.slot, Slot.mk.injEq, List.cons.injEq, MatchItem.mk.injEq] at heq
      exact heq.2.2.1.2.1
    exact hc.apart jb hjb jb' hjb' n hn n' hn' (vid_inj (hc.vids jb hjb n hn) (hc.vids jb' hjb' n' hn') h1)
  have hmiss : ∀ jb n, (outRule c jb n).slot ≠ (missRule c).slot := by
    intro jb n heq
    have := hc.prios
    simp only [outRule, missRule, FlowMod.slot, Slot.mk.injEq] at heq
    omega
  constructor
  · intro t b htc
    by_cases hx : ∃ f, OfMsg.flow f ∈ l.flatMap (addPort c) ∧ f.slot = t
    · obtain ⟨f, hf, hft⟩ := hx
      obtain ⟨jb, hjb, h | h | ⟨n, hn, h⟩⟩ := mem_adds hf
      · cases h; rw [← hft] at htc; exact absurd htc hc.tables.1
      · cases h; rw [← hft] at htc; exact absurd htc hc.tables.2.1
      · cases h
        have hsame := flows_adds_same (l.flatMap (addPort c)) adds_quiet adds_plain sw t (outRule c jb.2 n).body ⟨_, hf, hft⟩ (by
          intro g hg hgt
          obtain ⟨jb', hjb', h | h | ⟨n', hn', h⟩⟩ := mem_adds hg
          · cases h; rw [← hgt] at htc; exact absurd htc hc.tables.1
          · cases h; rw [← hgt] at htc; exact absurd htc hc.tables.2.1
          · cases h
            have := huniq jb' (hl _ hjb') jb (hl _ hjb) n' hn' n hn (hgt.trans hft.symm)
            subst this
            rfl)
        rw [hsame]
        constructor
        · intro h
          cases h
          exact Or.inr ⟨jb, hl _ hjb, hsub _ hjb, n, hn, hft.symm, rfl⟩
        · rintro (⟨h1, _⟩ | ⟨jb', hjb', _, n', hn', h1, h2⟩)
          · exact absurd (hft.trans h1) (hmiss _ _)
          · have := huniq jb' hjb' jb (hl _ hjb) n' hn' n hn (h1.symm.trans hft.symm)
            subst this
            rw [h2]
            rfl
    · have hx' : ∀ f, OfMsg.flow f ∈ l.flatMap (addPort c) → f.slot ≠ t := fun f hf h => hx ⟨f, hf, h⟩
      rw [flows_adds_other (l.flatMap (addPort c)) adds_quiet adds_plain sw t hx', ht t b htc]
      constructor
      · rintro (h | ⟨jb, hjb, hs, h⟩)
        · exact Or.inl h
        · exact Or.inr ⟨jb, hjb, hseen _ hs, h⟩
      · rintro (h | ⟨jb, hjb, hs, n, hn, h1, h2⟩)
        · exact Or.inl h
        · rcases hnew jb hjb hs with hs | hin
          · exact Or.inr ⟨jb, hjb, hs, n, hn, h1, h2⟩
          · exfalso
            apply hx' (outRule c jb.2 n) _ h1.symm
            exact List.mem_flatMap.2 ⟨jb, hin, List.mem_cons_of_mem _ (List.mem_cons_of_mem _ (List.mem_map.2 ⟨n, hn, rfl⟩))⟩
  · intro jb hjb hjs
    by_cases hx : ∃ f, OfMsg.flow f ∈ l.flatMap (addPort c) ∧ f.slot = (vlanRule c jb.1).slot
    · apply flows_adds_same (l.flatMap (addPort c)) adds_quiet adds_plain sw _ _ hx
      intro g hg hgt
      obtain ⟨jb', hjb', h | h | ⟨n', hn', h⟩⟩ := mem_adds hg
      · cases h; rfl
      · cases h
        exact absurd (congrArg Slot.table hgt) hc.tables.2.2
      · cases h
        exact absurd (congrArg Slot.table hgt).symm hc.tables.1
    · have hx' : ∀ f, OfMsg.flow f ∈ l.flatMap (addPort c) → f.slot ≠ (vlanRule c jb.1).slot := fun f hf h => hx ⟨f, hf, h⟩
      rw [flows_adds_other (l.flatMap (addPort c)) adds_quiet adds_plain sw _ hx']
      rcases hnew jb hjb hjs with hs | hin
      · exact he jb hjb hs
      · exact absurd rfl (hx' (vlanRule c jb.1) (List.mem_flatMap.2 ⟨jb, hin, List.mem_cons_self⟩))

theorem mem_among {c : Cfg} {js : List Nat} {jb : Nat × Nat} : jb ∈ among c js ↔ jb ∈ c.copro ∧ jb.1 ∈ js := by
  unfold among
  rw [List.mem_filter]
  simp

theorem inv_connect {c : Cfg} (hc : Valid c) (s : St) {up : List Nat} {others : List OfMsg} (ho : Aside c others) :
    Inv c (step s (.connect c up others)) := by
  let sw0 : Switch := { s.sw with flows := fun _ => none }.execAll [.flow (missRule c)]
  have h0 : ∀ t b, t.table = c.tc → (sw0.flows t = some b ↔ Holds c [] t b) := by
    intro t b _
    show ((if (missRule c).slot = t then some (missRule c).body else none) = some b) ↔ _
    unfold Holds
    by_cases h : (missRule c).slot = t
    · rw [if_pos h]
      constructor
      · intro hb; cases hb; exact Or.inl ⟨h.symm, rfl⟩
      · rintro (⟨_, h2⟩ | ⟨_, _, h2, _⟩)
        · rw [h2]
        · cases h2
    · rw [if_neg h]
      constructor
      · intro hb; cases hb
      · rintro (⟨h1, _⟩ | ⟨_, _, h2, _⟩)
        · exact absurd h1.symm h
        · cases h2
  have hadd := adds_flows hc (seen := []) (js := up) (l := among c up) (sw := sw0) (fun jb h => (mem_among.1 h).1)
    (fun jb h => (mem_among.1 h).2) (fun x h => by cases h) (fun jb h1 h2 => Or.inr (mem_among.2 ⟨h1, h2⟩)) h0
    (fun jb _ h => by cases h)
  have hsw : (step s (.connect c up others)).sw = (sw0.execAll ((among c up).flatMap (addPort c))).execAll others := by
    show Switch.execAll _ (_ :: _ ++ _) = _
    rw [List.cons_append, ← List.singleton_append, execAll_append', execAll_append']
  refine ⟨rfl, ?_, ?_⟩
  · intro t b ht
    rw [hsw, aside_flows ho _ (Or.inl ht)]
    exact hadd.1 t b ht
  · intro jb hjb hs
    rw [hsw, aside_flows ho _ (Or.inr ⟨rfl, rfl, jb, hjb, rfl⟩)]
    exact hadd.2 jb hjb hs

theorem inv_step {c : Cfg} (hc : Valid c) {s : St} (hi : Inv c s) {e : Ev} (he : Steady c e) : Inv c (step s e) := by
  cases e with
  | connect _ _ _ => exact he.elim
  | portUp j others =>
    have hcfg := hi.cfg
    have hadd := adds_flows hc (seen := s.seen) (js := j :: s.seen) (l := among c [j]) (sw := s.sw) (fun jb h => (mem_among.1 h).1)
      (fun jb h => List.mem_cons.2 (Or.inl (by simpa using (mem_among.1 h).2))) (fun x h => List.mem_cons_of_mem _ h)
      (fun jb h1 h2 => by
        rcases List.mem_cons.1 h2 with h | h
        · exact Or.inr (mem_among.2 ⟨h1, by simp [h]⟩)
        · exact Or.inl h) hi.table hi.entry
    have hsw : (step s (.portUp j others)).sw = (s.sw.execAll ((among c [j]).flatMap (addPort c))).execAll others := by
      show Switch.execAll _ (_ ++ _) = _
      rw [execAll_append', hcfg]
    refine ⟨hcfg, ?_, ?_⟩
    · intro t b ht
      rw [hsw, aside_flows he _ (Or.inl ht)]
      exact hadd.1 t b ht
    · intro jb hjb hs
      rw [hsw, aside_flows he _ (Or.inr ⟨rfl, rfl, jb, hjb, rfl⟩)]
      exact hadd.2 jb hjb hs
  | portDown j others =>
    refine ⟨hi.cfg, ?_, ?_⟩
    · intro t b ht
      show (s.sw.execAll others).flows t = some b ↔ _
      rw [aside_flows he _ (Or.inl ht)]
      exact hi.table t b ht
    · intro jb hjb hs
      show (s.sw.execAll others).flows _ = _
      rw [aside_flows he _ (Or.inr ⟨rfl, rfl, jb, hjb, rfl⟩)]
      exact hi.entry jb hjb hs
  | reload new again others =>
    obtain ⟨rfl, ho⟩ := he
    have hadd := adds_flows hc (seen := s.seen) (js := s.seen)
      (l := (among new s.seen).filter (fun jb => decide (jb ∉ s.cfg.copro ∨ jb.1 ∈ again))) (sw := s.sw)
      (fun jb h => (mem_among.1 (List.mem_filter.1 h).1).1) (fun jb h => (mem_among.1 (List.mem_filter.1 h).1).2) (fun x h => h)
      (fun jb _ h2 => Or.inl h2) hi.table hi.entry
    have hsw : (step s (.reload new again others)).sw = (s.sw.execAll
        (((among new s.seen).filter (fun jb => decide (jb ∉ s.cfg.copro ∨ jb.1 ∈ again))).flatMap (addPort new))).execAll others := by
      show Switch.execAll _ (_ ++ _) = _
      rw [execAll_append']
    refine ⟨rfl, ?_, ?_⟩
    · intro t b ht
      rw [hsw, aside_flows ho _ (Or.inl ht)]
      exact hadd.1 t b ht
    · intro jb hjb hs
      rw [hsw, aside_flows ho _ (Or.inr ⟨rfl, rfl, jb, hjb, rfl⟩)]
      exact hadd.2 jb hjb hs

theorem inv_run {c : Cfg} (hc : Valid c) {s : St} (hi : Inv c s) {h : List Ev} (hh : ∀ e ∈ h, Steady c e) : Inv c (run s h) := by
  induction h generalizing s with
  | nil => exact hi
  | cons e h ih => exact ih (inv_step hc hi (hh e List.mem_cons_self)) (fun e' he' => hh e' (List.mem_cons_of_mem _ he'))

/-! ## Packets -/

theorem hit_inport {j k : Nat} {p : Pkt} (hp : p.hdr fInPort = some j) : hitsAll [⟨fInPort, k, none⟩] p = true ↔ k = j := by
  unfold hitsAll
  simp only [List.all_cons, List.all_nil, Bool.and_true]
  rw [hits_exact (by decide) (by decide), hp]
  simp [eq_comm]

theorem hit_vid {v w q : Nat} {rest : List (Nat × Nat)} {p : Pkt} (hp : p.tags = (v, q) :: rest) :
    hitsAll [⟨fVlanVid, vidPresent w, none⟩] p = true ↔ vidPresent v = vidPresent w := by
  unfold hitsAll MatchItem.hits Pkt.field
  simp [hp, maskEq]

/-- The packets of a coprocessor get to its table, as they are. -/
theorem to_copro {c : Cfg} {s : St} {j : Nat} (he : s.sw.flows (vlanRule c j).slot = some (vlanRule c j).body) {p : Pkt}
    (hp : p.hdr fInPort = some j)
    (halone : ∀ t b, s.sw.flows t = some b → t.table = c.tv → hitsAll t.items p = true →
      t.priority < c.low ∨ (t.priority = c.low ∧ t.items = [⟨fInPort, j, none⟩]))
    {es : List Emit} (h : Proc s.sw c.tv p es) : Proc s.sw c.tc p es := by
  have hhit : hitsAll (vlanRule c j).slot.items p = true := (hit_inport hp).2 rfl
  have huse : ∀ t b, Hit s.sw c.tv p t b → b = (vlanRule c j).body := by
    intro t b ht
    have hge := ht.best _ _ he rfl hhit
    rcases halone t b ht.present ht.table ht.hits with h | ⟨h1, h2⟩
    · have : (vlanRule c j).slot.priority = c.low := rfl
      omega
    · have : t = (vlanRule c j).slot := by
        obtain ⟨tt, tp, ti⟩ := t
        simp only at h1 h2
        have h3 : tt = c.tv := ht.table
        subst h1 h2 h3
        rfl
      have hp := ht.present
      rw [this, he] at hp
      exact (Option.some.inj hp).symm
  cases h with
  | miss hm =>
    rw [hm _ _ he rfl] at hhit
    cases hhit
  | done ht hg =>
    rw [huse _ _ ht] at hg
    cases hg
  | next ht hg hn =>
    rw [huse _ _ ht] at hg hn ⊢
    cases hg
    exact hn

/-- A packet for which the `copro` table uses the rule for a port leaves by that port. -/
theorem out_by_rule {c : Cfg} (hc : Valid c) {sw : Switch} {j base n q : Nat} {rest : List (Nat × Nat)} (hn : n ∈ c.ports) {p : Pkt}
    (hp : p.hdr fInPort = some j) (htag : p.tags = (base + n, q) :: rest)
    (hrule : sw.flows (outRule c base n).slot = some (outRule c base n).body)
    (huse : ∀ t b, Hit sw c.tc p t b → b = (outRule c base n).body)
    {es : List Emit} (hcop : Proc sw c.tc p es) : es = if n = j then [] else [⟨n, rest, p.hdr⟩] := by
  have hhit : hitsAll (outRule c base n).slot.items p = true := (hit_vid htag).2 rfl
  cases hcop with
  | miss hm =>
    rw [hm _ _ hrule rfl] at hhit
    cases hhit
  | next ht hg _ =>
    rw [huse _ _ ht] at hg
    cases hg
  | done ht _ =>
    rw [huse _ _ ht]
    have hne : n ≠ portInPort := by
      have := hc.nums n hn
      unfold portInPort
      omega
    show emitPort { p with tags := p.tags.tail } n ++ [] = _
    rw [List.append_nil]
    unfold emitPort
    rw [if_neg hne, htag]
    simp only [hp, Option.some.injEq, List.tail_cons]
    by_cases hnj : n = j
    · rw [if_pos hnj.symm, if_pos hnj]
    · rw [if_neg (fun h => hnj h.symm), if_neg hnj]

/-- C79: since a switch connected, and while nothing changes about coprocessors and which ports there are: a packet that a coprocessor
hands over with VLAN id base + n leaves by port n, without the tag, and by no other (and is dropped if n is the coprocessor's own
port). `halone`: no rule made by another part of FAUCET catches the packet first; those that could are the rules for control frames and
for frames with a broadcast source, in the `vlan` table.

Missing: changes of coprocessor ports and of ports without a cold start (`Ex.moved_base_defect`, `Ex.added_port_defect`), and bases that
overlap (`Ex.overlapping_bases_defect`). -/
theorem coprocessor_output_partial {c : Cfg} (hc : Valid c) (s : St) {up : List Nat} {others : List OfMsg} (ho : Aside c others)
    {h : List Ev} (hh : ∀ e ∈ h, Steady c e) {j base n q : Nat} {rest : List (Nat × Nat)} (hj : (j, base) ∈ c.copro)
    (hs : j ∈ (run s (.connect c up others :: h)).seen) (hn : n ∈ c.ports) {p : Pkt} (hp : p.hdr fInPort = some j)
    (htag : p.tags = (base + n, q) :: rest)
    (halone : ∀ t b, (run s (.connect c up others :: h)).sw.flows t = some b → t.table = c.tv → hitsAll t.items p = true →
      t.priority < c.low ∨ (t.priority = c.low ∧ t.items = [⟨fInPort, j, none⟩]))
    {es : List Emit} (hproc : Proc (run s (.connect c up others :: h)).sw c.tv p es) :
    es = if n = j then [] else [⟨n, rest, p.hdr⟩] := by
  have hi : Inv c (run s (.connect c up others :: h)) := inv_run hc (inv_connect hc s ho) hh
  generalize run s (.connect c up others :: h) = s' at *
  have hcop := to_copro (hi.entry _ hj hs) hp halone hproc
  have hrule := (hi.table (outRule c base n).slot (outRule c base n).body rfl).2
    (Or.inr ⟨(j, base), hj, hs, n, hn, rfl, rfl⟩)
  have hhit : hitsAll (outRule c base n).slot.items p = true := (hit_vid htag).2 rfl
  have huse : ∀ t b, Hit s'.sw c.tc p t b → b = (outRule c base n).body := by
    intro t b ht
    have hge := ht.best _ _ hrule rfl hhit
    rcases (hi.table t b ht.table).1 ht.present with ⟨h1, _⟩ | ⟨jb, hjb, _, n', hn', h1, h2⟩
    · rw [h1] at hge
      have h3 : c.high ≤ c.lowest := hge
      have := hc.prios
      omega
    · have hv := ht.hits
      rw [h1] at hv
      have hv := (hit_vid htag).1 hv
      have heq := vid_inj (hc.vids _ hj n hn) (hc.vids jb hjb n' hn') hv
      have := hc.apart _ hj jb hjb n hn n' hn' heq
      subst this
      rw [h2]
      rfl
  exact out_by_rule hc hn hp htag hrule huse hcop

/-- C79: under the same conditions, a packet with a VLAN id that stands for no port, or without a tag, is switched: it goes to the
`eth_dst` table unchanged, without passing by a table where its source is learned. -/
theorem coprocessor_inject_partial {c : Cfg} (hc : Valid c) (s : St) {up : List Nat} {others : List OfMsg} (ho : Aside c others)
    {h : List Ev} (hh : ∀ e ∈ h, Steady c e) {j base : Nat} (hj : (j, base) ∈ c.copro)
    (hs : j ∈ (run s (.connect c up others :: h)).seen) {p : Pkt} (hp : p.hdr fInPort = some j)
    (htag : ∀ v q rest, p.tags = (v, q) :: rest → v < 4096 ∧ ∀ jb ∈ c.copro, ∀ n ∈ c.ports, v ≠ jb.2 + n)
    (halone : ∀ t b, (run s (.connect c up others :: h)).sw.flows t = some b → t.table = c.tv → hitsAll t.items p = true →
      t.priority < c.low ∨ (t.priority = c.low ∧ t.items = [⟨fInPort, j, none⟩]))
    {es : List Emit} (hproc : Proc (run s (.connect c up others :: h)).sw c.tv p es) :
    Proc (run s (.connect c up others :: h)).sw c.tdst p es := by
  have hi : Inv c (run s (.connect c up others :: h)) := inv_run hc (inv_connect hc s ho) hh
  generalize run s (.connect c up others :: h) = s' at *
  have hcop := to_copro (hi.entry _ hj hs) hp halone hproc
  have hmiss := (hi.table (missRule c).slot (missRule c).body rfl).2 (Or.inl ⟨rfl, rfl⟩)
  have huse : ∀ t b, Hit s'.sw c.tc p t b → b = (missRule c).body := by
    intro t b ht
    rcases (hi.table t b ht.table).1 ht.present with ⟨_, h2⟩ | ⟨jb, hjb, _, n, hn, h1, _⟩
    · exact h2
    · exfalso
      have hv := ht.hits
      rw [h1] at hv
      cases htags : p.tags with
      | nil =>
        have : (⟨fVlanVid, vidPresent (jb.2 + n), none⟩ : MatchItem).hits p = true := by
          have hv' : hitsAll [⟨fVlanVid, vidPresent (jb.2 + n), none⟩] p = true := hv
          simpa [hitsAll] using hv'
        simp only [MatchItem.hits, Pkt.field, htags, if_true, maskEq, beq_iff_eq] at this
        have h0 : vidPresent (jb.2 + n) = vidPresent 0 - 4096 := this.symm
        have hb : (vidPresent (jb.2 + n)).testBit 12 = true := by
          unfold vidPresent vidPresentBit
          rw [Nat.testBit_or]
          have : Nat.testBit 0x1000 12 = true := by decide
          rw [this, Bool.or_true]
        rw [h0] at hb
        revert hb
        decide
      | cons x rest =>
        obtain ⟨v, q⟩ := x
        have hv := (hit_vid htags).1 hv
        obtain ⟨h1, h2⟩ := htag v q rest htags
        exact h2 jb hjb n hn (vid_inj h1 (hc.vids jb hjb n hn) hv)
  cases hcop with
  | miss hm =>
    have := hm _ _ hmiss rfl
    cases this
  | done ht hg =>
    rw [huse _ _ ht] at hg
    cases hg
  | next ht hg hn =>
    rw [huse _ _ ht] at hg hn ⊢
    cases hg
    exact hn

/-- C79: a coprocessor that a reload adds, or gives another base, can use its new VLAN ids at once, for the ports of the new
configuration, also when they were ids of an earlier base. (That the old ones go on working is `Ex.moved_base_defect`.) `hsame`: the
reload changes neither tables nor priorities, or it would be a cold start. -/
theorem changed_coprocessor_output {c new : Cfg} (hc : Valid c) (hv : Valid new)
    (hsame : new.tc = c.tc ∧ new.lowest = c.lowest ∧ new.high = c.high) (s : St) {up : List Nat} {others others' : List OfMsg}
    (ho : Aside c others) {h : List Ev} (hh : ∀ e ∈ h, Steady c e) {again : List Nat} (ho' : Aside new others')
    {j base n q : Nat} {rest : List (Nat × Nat)} (hj : (j, base) ∈ new.copro) (hnew : (j, base) ∉ c.copro)
    (hs : j ∈ (run s (.connect c up others :: h)).seen) (hn : n ∈ new.ports) {p : Pkt} (hp : p.hdr fInPort = some j)
    (htag : p.tags = (base + n, q) :: rest)
    (halone : ∀ t b, (step (run s (.connect c up others :: h)) (.reload new again others')).sw.flows t = some b → t.table = new.tv →
      hitsAll t.items p = true → t.priority < new.low ∨ (t.priority = new.low ∧ t.items = [⟨fInPort, j, none⟩]))
    {es : List Emit} (hproc : Proc (step (run s (.connect c up others :: h)) (.reload new again others')).sw new.tv p es) :
    es = if n = j then [] else [⟨n, rest, p.hdr⟩] := by
  have hi : Inv c (run s (.connect c up others :: h)) := inv_run hc (inv_connect hc s ho) hh
  generalize run s (.connect c up others :: h) = s' at *
  let l := (among new s'.seen).filter (fun jb => decide (jb ∉ s'.cfg.copro ∨ jb.1 ∈ again))
  have hl : ∀ jb ∈ l, jb ∈ new.copro := fun jb hjb => (mem_among.1 (List.mem_filter.1 hjb).1).1
  have hin : (j, base) ∈ l := by
    refine List.mem_filter.2 ⟨mem_among.2 ⟨hj, hs⟩, ?_⟩
    rw [hi.cfg]
    exact decide_eq_true (Or.inl hnew)
  have hsw : (step s' (.reload new again others')).sw = (s'.sw.execAll (l.flatMap (addPort new))).execAll others' := by
    show Switch.execAll _ (_ ++ _) = _
    rw [execAll_append']
  have huniq : ∀ jb ∈ new.copro, ∀ n' ∈ new.ports, vidPresent (base + n) = vidPresent (jb.2 + n') → n' = n := by
    intro jb hjb n' hn' heq
    exact (hv.apart _ hj jb hjb n hn n' hn' (vid_inj (hv.vids _ hj n hn) (hv.vids jb hjb n' hn') heq)).symm
  have hmem : OfMsg.flow (outRule new base n) ∈ l.flatMap (addPort new) :=
    List.mem_flatMap.2 ⟨(j, base), hin, List.mem_cons_of_mem _ (List.mem_cons_of_mem _ (List.mem_map.2 ⟨n, hn, rfl⟩))⟩
  have hentry : (step s' (.reload new again others')).sw.flows (vlanRule new j).slot = some (vlanRule new j).body := by
    rw [hsw, aside_flows ho' _ (Or.inr ⟨rfl, rfl, (j, base), hj, rfl⟩)]
    apply flows_adds_same _ adds_quiet adds_plain
    · exact ⟨vlanRule new j, List.mem_flatMap.2 ⟨(j, base), hin, List.mem_cons_self⟩, rfl⟩
    · intro g hg hgt
      obtain ⟨jb', hjb', h | h | ⟨n', hn', h⟩⟩ := mem_adds hg
      · cases h; rfl
      · cases h
        exact absurd (congrArg Slot.table hgt) hv.tables.2.2
      · cases h
        exact absurd (congrArg Slot.table hgt).symm hv.tables.1
  have hrule : (step s' (.reload new again others')).sw.flows (outRule new base n).slot = some (outRule new base n).body := by
    rw [hsw, aside_flows ho' _ (Or.inl rfl)]
    apply flows_adds_same _ adds_quiet adds_plain
    · exact ⟨_, hmem, rfl⟩
    · intro g hg hgt
      obtain ⟨jb', hjb', h | h | ⟨n', hn', h⟩⟩ := mem_adds hg
      · cases h; exact absurd (congrArg Slot.table hgt) hv.tables.1
      · cases h; exact absurd (congrArg Slot.table hgt) hv.tables.2.1
      · cases h
        simp only [outRule, FlowMod.slot, Slot.mk.injEq, List.cons.injEq, MatchItem.mk.injEq] at hgt
        have := huniq jb' (hl _ hjb') n' hn' hgt.2.2.1.2.1.symm
        subst this
        rfl
  refine out_by_rule hv hn hp htag hrule ?_ (to_copro hentry hp halone hproc)
  intro t b ht
  have hge : new.high ≤ t.priority := ht.best _ _ hrule rfl ((hit_vid htag).2 rfl)
  have hpres := ht.present
  rw [hsw, aside_flows ho' _ (Or.inl ht.table)] at hpres
  have hsl : t = (outRule new base n).slot := by
    by_cases hx : ∃ f, OfMsg.flow f ∈ l.flatMap (addPort new) ∧ f.slot = t
    · obtain ⟨f, hf, hft⟩ := hx
      have htab := ht.table
      obtain ⟨jb', hjb', h | h | ⟨n', hn', h⟩⟩ := mem_adds hf
      · cases h; rw [← hft] at htab; exact absurd htab hv.tables.1
      · cases h; rw [← hft] at htab; exact absurd htab hv.tables.2.1
      · cases h
        have hh := ht.hits
        rw [← hft] at hh
        have heq := (hit_vid htag).1 hh
        rw [← hft]
        simp only [outRule, FlowMod.slot, heq]
    · have hx' : ∀ f, OfMsg.flow f ∈ l.flatMap (addPort new) → f.slot ≠ t := fun f hf h => hx ⟨f, hf, h⟩
      rw [flows_adds_other _ adds_quiet adds_plain _ t hx'] at hpres
      rcases (hi.table t b (ht.table.trans hsame.1)).1 hpres with ⟨h1, _⟩ | ⟨jb, _, _, n', _, h1, _⟩
      · rw [h1] at hge
        have h3 : new.high ≤ c.lowest := hge
        have := hv.prios
        omega
      · have hh := ht.hits
        rw [h1] at hh
        have heq := (hit_vid htag).1 hh
        rw [h1]
        simp only [outRule, FlowMod.slot, heq, hsame.1, hsame.2.2]
  have hp2 := ht.present
  rw [hsl, hrule] at hp2
  exact (Option.some.inj hp2).symm

end Faucet.Copro
