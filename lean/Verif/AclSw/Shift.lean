import Verif.OpenFlow.Datapath
import Verif.FlowReorder.Exec

/-!
# The same rules, one table later

A datapath that has port ACLs has one more table, the first one. All other tables have the number after the one they would
have without (`Faucet.AclSw.shift_id`).
-/

namespace Faucet.OF

/-- The number that a table gets when there is one more table before it. `tableAll` is no table. (Tables have numbers below
254. For 254 the function skips `tableAll`, so that it is one-to-one.) -/
def shiftTable (t : Nat) : Nat := if t = tableAll then tableAll else if t + 1 = tableAll then tableAll + 1 else t + 1

def Inst.shift : Inst → Inst
  | .goto t => .goto (shiftTable t)
  | i => i

def shiftInst (is : List Inst) : List Inst := is.map Inst.shift

def Slot.shift (s : Slot) : Slot := ⟨shiftTable s.table, s.priority, s.items⟩

def Body.shift (b : Body) : Body := ⟨shiftInst b.inst, b.cookie, b.hard, b.idle⟩

def FlowMod.shift (f : FlowMod) : FlowMod where
  cmd := f.cmd
  table := shiftTable f.table
  priority := f.priority
  mtch := f.mtch
  cookie := f.cookie
  inst := shiftInst f.inst
  outPort := f.outPort
  hard := f.hard
  idle := f.idle

/-- The message for the datapath with one more table. -/
def OfMsg.shift : OfMsg → OfMsg
  | .flow f => .flow f.shift
  | m => m

theorem shiftTable_cases (a : Nat) : (a = 255 ∧ shiftTable a = 255) ∨ (a = 254 ∧ shiftTable a = 256) ∨
    (a ≠ 255 ∧ a ≠ 254 ∧ shiftTable a = a + 1) := by
  unfold shiftTable
  by_cases h : a = tableAll
  · rw [if_pos h]; exact Or.inl ⟨h, rfl⟩
  · rw [if_neg h]
    have h : a ≠ 255 := h
    by_cases h' : a + 1 = tableAll
    · rw [if_pos h']
      have h' : a + 1 = 255 := h'
      exact Or.inr (Or.inl ⟨by omega, rfl⟩)
    · rw [if_neg h']
      have h' : a + 1 ≠ 255 := h'
      exact Or.inr (Or.inr ⟨h, by omega, rfl⟩)

theorem shiftTable_inj {a b : Nat} (h : shiftTable a = shiftTable b) : a = b := by
  rcases shiftTable_cases a with ⟨h1, h2⟩ | ⟨h1, h2⟩ | ⟨h1, h1', h2⟩ <;>
    rcases shiftTable_cases b with ⟨h3, h4⟩ | ⟨h3, h4⟩ | ⟨h3, h3', h4⟩ <;> omega

theorem shiftTable_pos (a : Nat) : shiftTable a ≠ 0 := by
  rcases shiftTable_cases a with ⟨h1, h2⟩ | ⟨h1, h2⟩ | ⟨h1, h1', h2⟩ <;> omega

theorem shiftTable_all {a : Nat} : shiftTable a = tableAll ↔ a = tableAll := by
  show shiftTable a = 255 ↔ a = 255
  rcases shiftTable_cases a with ⟨h1, h2⟩ | ⟨h1, h2⟩ | ⟨h1, h1', h2⟩ <;> omega

theorem shiftTable_small {a : Nat} (h : a < 254) : shiftTable a = a + 1 := by
  unfold shiftTable
  rw [if_neg (by simp only [tableAll]; omega), if_neg (by simp only [tableAll]; omega)]

theorem Slot.shift_inj {a b : Slot} (h : a.shift = b.shift) : a = b := by
  obtain ⟨t, p, i⟩ := a
  obtain ⟨t', p', i'⟩ := b
  simp only [Slot.shift, Slot.mk.injEq] at h
  obtain ⟨h1, rfl, rfl⟩ := h
  rw [shiftTable_inj h1]

theorem shift_tableOk (f : FlowMod) (t : Nat) : f.shift.tableOk (shiftTable t) = f.tableOk t := by
  have h1 : (shiftTable f.table == tableAll) = (f.table == tableAll) := by
    rw [Bool.eq_iff_iff, beq_iff_eq, beq_iff_eq, shiftTable_all]
  have h2 : (shiftTable f.table == shiftTable t) = (f.table == t) := by
    rw [Bool.eq_iff_iff, beq_iff_eq, beq_iff_eq]
    exact ⟨shiftTable_inj, fun h => by rw [h]⟩
  show (shiftTable f.table == tableAll || shiftTable f.table == shiftTable t) = _
  rw [h1, h2]
  rfl

theorem any_shift (p : Inst → Bool) (hp : ∀ i, p i.shift = p i) (is : List Inst) : (shiftInst is).any p = is.any p := by
  induction is with
  | nil => rfl
  | cons i is ih =>
    show (p i.shift || (shiftInst is).any p) = _
    rw [hp, ih]
    rfl

theorem shift_outputsTo (b : Body) (n : Nat) : b.shift.outputsTo n = b.outputsTo n := any_shift _ (fun i => by cases i <;> rfl) b.inst

theorem shift_outPortOk (f : FlowMod) (b : Body) : f.shift.outPortOk b.shift = f.outPortOk b := by
  unfold FlowMod.outPortOk
  show (match f.outPort with | none => true | some p => b.shift.outputsTo p) = _
  cases f.outPort with
  | none => rfl
  | some n => exact shift_outputsTo b n

theorem shift_flow_kills (f : FlowMod) (s : Slot) (b : Body) : f.shift.kills s.shift b.shift = f.kills s b := by
  unfold FlowMod.kills
  have h1 := shift_tableOk f s.table
  have h2 := shift_outPortOk f b
  show (match f.cmd with
    | .delete => f.shift.tableOk (shiftTable s.table) && coversItems f.mtch.items s.items && f.shift.outPortOk b.shift
    | .deleteStrict => f.shift.tableOk (shiftTable s.table) && f.priority == s.priority && f.mtch.items == s.items && f.shift.outPortOk b.shift
    | _ => false) = _
  rw [h1, h2]
  cases f.cmd <;> rfl

theorem shift_kills (m : OfMsg) (s : Slot) (b : Body) : m.shift.kills s.shift b.shift = m.kills s b := by
  cases m with
  | flow f => exact shift_flow_kills f s b
  | group g =>
    obtain ⟨c, i, bs⟩ := g
    cases c with
    | add => cases i <;> rfl
    | delete =>
      cases i with
      | none => exact any_shift _ (fun i => by cases i <;> rfl) b.inst
      | some i => exact any_shift _ (fun i => by cases i <;> rfl) b.inst
  | meter g =>
    obtain ⟨c, i, bs⟩ := g
    cases c with
    | add => cases i <;> rfl
    | delete =>
      cases i with
      | none => exact any_shift _ (fun i => by cases i <;> rfl) b.inst
      | some i => exact any_shift _ (fun i => by cases i <;> rfl) b.inst
  | _ => rfl

theorem filter_shift {p q : Body → Bool} (h : ∀ b, p b.shift = q b) (b : Option Body) :
    (b.map Body.shift).filter p = (b.filter q).map Body.shift := by
  cases b with
  | none => rfl
  | some b =>
    have := h b
    simp only [Option.map_some, Option.filter, this]
    split <;> rfl

theorem shift_onFlow (m : OfMsg) (s : Slot) (b : Option Body) :
    m.shift.onFlow s.shift (b.map Body.shift) = (m.onFlow s b).map Body.shift := by
  cases m with
  | flow f =>
    have hs : (f.shift.slot = s.shift) ↔ f.slot = s := by
      have : f.shift.slot = f.slot.shift := rfl
      rw [this]
      exact ⟨Slot.shift_inj, fun h => by rw [h]⟩
    have hk : ∀ x : Body, (!f.shift.kills s.shift x.shift) = !f.kills s x := fun x => congrArg not (shift_flow_kills f s x)
    obtain ⟨cmd, tb, pr, mt, ck, is, op, hd, id⟩ := f
    cases cmd with
    | add =>
      show (if _ then _ else _) = Option.map Body.shift (if _ then _ else _)
      rw [apply_ite (Option.map Body.shift)]
      by_cases hc : FlowMod.slot ⟨.add, tb, pr, mt, ck, is, op, hd, id⟩ = s
      · rw [if_pos hc, if_pos (hs.2 hc)]; rfl
      · rw [if_neg hc, if_neg (fun h => hc (hs.1 h))]
    | modifyStrict =>
      show (if _ then _ else _) = Option.map Body.shift (if _ then _ else _)
      by_cases hc : FlowMod.slot ⟨.modifyStrict, tb, pr, mt, ck, is, op, hd, id⟩ = s
      · rw [if_pos hc, if_pos (hs.2 hc)]; cases b <;> rfl
      · rw [if_neg hc, if_neg (fun h => hc (hs.1 h))]
    | delete => exact filter_shift hk b
    | deleteStrict => exact filter_shift hk b
  | group g => exact filter_shift (fun x => congrArg not (shift_kills (.group g) s x)) b
  | meter g => exact filter_shift (fun x => congrArg not (shift_kills (.meter g) s x)) b
  | config g => exact filter_shift (fun x => rfl) b
  | tfm g => exact filter_shift (fun x => rfl) b
  | packetOut g => exact filter_shift (fun x => rfl) b
  | barrier => exact filter_shift (fun x => rfl) b
  | other g => exact filter_shift (fun x => rfl) b

/-- The switch `sw` has, one table later, exactly what `l` has. -/
structure Lifts (sw l : Switch) : Prop where
  flows : ∀ s : Slot, sw.flows s.shift = (l.flows s).map Body.shift
  groups : sw.groups = l.groups

theorem Lifts.exec {sw l : Switch} (h : Lifts sw l) (m : OfMsg) : Lifts (sw.exec m.shift) (l.exec m) where
  flows := fun s => by
    show m.shift.onFlow s.shift (sw.flows s.shift) = (m.onFlow s (l.flows s)).map Body.shift
    rw [h.flows, shift_onFlow]
  groups := by
    funext g
    show m.shift.onGroup g (sw.groups g) = m.onGroup g (l.groups g)
    rw [h.groups]
    cases m <;> rfl

theorem Lifts.execAll {sw l : Switch} (h : Lifts sw l) (ms : List OfMsg) : Lifts (sw.execAll (ms.map OfMsg.shift)) (l.execAll ms) := by
  induction ms generalizing sw l with
  | nil => exact h
  | cons m ms ih => exact ih (h.exec m)

theorem shift_goto (is : List Inst) : instGoto (shiftInst is) = (instGoto is).map shiftTable := by
  induction is with
  | nil => rfl
  | cons i is ih =>
    cases i with
    | goto t => rfl
    | _ => exact ih

theorem shift_acts (is : List Inst) : instActs (shiftInst is) = instActs is := by
  induction is with
  | nil => rfl
  | cons i is ih =>
    cases i with
    | apply as => show as ++ instActs (shiftInst is) = as ++ instActs is; rw [ih]
    | _ => exact ih

theorem shift_meta (is : List Inst) : instMeta (shiftInst is) = instMeta is := by
  induction is with
  | nil => rfl
  | cons i is ih =>
    cases i with
    | writeMetadata v m => show (v, m) :: instMeta (shiftInst is) = (v, m) :: instMeta is; rw [ih]
    | _ => exact ih

theorem Lifts.run {sw l : Switch} (h : Lifts sw l) (is : List Inst) (k : Pkt) : runInst sw (shiftInst is) k = runInst l is k := by
  unfold runInst
  rw [shift_acts, shift_meta, h.groups]

theorem Lifts.hit {sw l : Switch} (h : Lifts sw l) {t : Nat} {k : Pkt} {s : Slot} {b : Body} (hh : Hit sw (shiftTable t) k s b) :
    ∃ s' b', b = b'.shift ∧ Hit l t k s' b' := by
  obtain ⟨tb, pr, is⟩ := s
  have ht : tb = shiftTable t := hh.table
  subst ht
  have hp := hh.present
  have e := h.flows ⟨t, pr, is⟩
  have e : sw.flows ⟨shiftTable t, pr, is⟩ = _ := e
  rw [e] at hp
  obtain ⟨b', hb', rfl⟩ := Option.map_eq_some_iff.1 hp
  refine ⟨⟨t, pr, is⟩, b', rfl, hb', rfl, hh.hits, ?_⟩
  intro s2 b2 h2 ht2 hh2
  refine hh.best s2.shift b2.shift ?_ ?_ hh2
  · rw [h.flows, h2]; rfl
  · show shiftTable s2.table = _
    rw [ht2]

theorem Lifts.miss {sw l : Switch} (h : Lifts sw l) {t : Nat} {k : Pkt} (hm : Miss sw (shiftTable t) k) : Miss l t k := by
  intro s b hb ht
  refine hm s.shift b.shift ?_ ?_
  · rw [h.flows, hb]; rfl
  · show shiftTable s.table = _
    rw [ht]

/-- What the switch does with a packet from the later table on is what the other does from the earlier one. -/
theorem Lifts.proc {sw l : Switch} (h : Lifts sw l) {t' : Nat} {k : Pkt} {es : List Emit} (hp : Proc sw t' k es) :
    ∀ t, t' = shiftTable t → Proc l t k es := by
  induction hp with
  | miss hm => rintro t rfl; exact .miss (h.miss hm)
  | @done t0 k s b hh hg =>
    rintro t rfl
    obtain ⟨s', b', rfl, hh'⟩ := h.hit hh
    have hg : instGoto (shiftInst b'.inst) = none := hg
    rw [shift_goto] at hg
    have he : runInst sw b'.shift.inst k = runInst l b'.inst k := h.run b'.inst k
    rw [he]
    exact .done hh' (by simpa using hg)
  | @next t0 k s b n es hh hg _ ih =>
    rintro t rfl
    obtain ⟨s', b', rfl, hh'⟩ := h.hit hh
    have hg : instGoto (shiftInst b'.inst) = some n := hg
    rw [shift_goto] at hg
    obtain ⟨n', hn', rfl⟩ := Option.map_eq_some_iff.1 hg
    have he : runInst sw b'.shift.inst k = runInst l b'.inst k := h.run b'.inst k
    rw [he] at ih ⊢
    exact .next hh' hn' (ih n' rfl)

/-! ## The tables before -/

/-- A message that is shifted and is no delete of all kinds of flows leaves table 0 alone. -/
theorem shift_zero {m : OfMsg} {s : Slot} {b : Option Body} (hs : s.table = 0)
    (hm : match m with | .flow f => f.table ≠ tableAll | .group _ => False | .meter _ => False | _ => True) : m.shift.onFlow s b = b := by
  have hf : ∀ (b : Option Body) (p : Body → Bool), (∀ x, p x = true) → b.filter p = b := by
    intro b p hp
    cases b with
    | none => rfl
    | some x => simp [Option.filter, hp x]
  cases m with
  | flow f =>
    have ht : f.table ≠ tableAll := hm
    have hne : f.shift.slot ≠ s := by
      intro h
      have : f.shift.slot.table = s.table := by rw [h]
      exact shiftTable_pos f.table (this.trans hs)
    have hk : ∀ x, f.shift.kills s x = false := by
      intro x
      have h1 : f.shift.tableOk s.table = false := by
        show (shiftTable f.table == tableAll || shiftTable f.table == s.table) = false
        rw [hs, Bool.or_eq_false_iff, beq_eq_false_iff_ne, beq_eq_false_iff_ne]
        exact ⟨fun h => ht (shiftTable_all.1 h), shiftTable_pos f.table⟩
      unfold FlowMod.kills
      rw [h1]
      cases f.shift.cmd <;> simp
    unfold OfMsg.onFlow
    show (match f.cmd with
      | .add => if f.shift.slot = s then some f.shift.body else b
      | .modifyStrict => if f.shift.slot = s then b.map (fun x => { x with inst := f.shift.inst }) else b
      | _ => b.filter (fun x => !f.shift.kills s x)) = b
    rw [if_neg hne, if_neg hne, hf b _ (fun x => by simp [hk x])]
    cases f.cmd <;> rfl
  | group g => exact hm.elim
  | meter g => exact hm.elim
  | _ => exact hf b _ (fun x => rfl)

theorem shift_zero_all {ms : List OfMsg} (hm : ∀ m ∈ ms, match m with | .flow f => f.table ≠ tableAll | .group _ => False | .meter _ => False | _ => True)
    (sw : Switch) {s : Slot} (hs : s.table = 0) : (sw.execAll (ms.map OfMsg.shift)).flows s = sw.flows s := by
  induction ms generalizing sw with
  | nil => rfl
  | cons m ms ih =>
    have := ih (fun x hx => hm x (List.mem_cons_of_mem _ hx)) (sw.exec m.shift)
    have h1 : (sw.exec m.shift).flows s = sw.flows s := shift_zero hs (hm m List.mem_cons_self)
    rw [h1] at this
    exact this

/-- Nothing is added to table 0. -/
theorem shift_zero_none {m : OfMsg} {s : Slot} (hs : s.table = 0) : m.shift.onFlow s none = none := by
  cases m with
  | flow f =>
    have hne : f.shift.slot ≠ s := by
      intro h
      have : f.shift.slot.table = s.table := by rw [h]
      exact shiftTable_pos f.table (this.trans hs)
    unfold OfMsg.onFlow
    show (match f.cmd with
      | .add => if f.shift.slot = s then some f.shift.body else none
      | .modifyStrict => if f.shift.slot = s then Option.map (fun x : Body => { x with inst := f.shift.inst }) none else none
      | _ => Option.filter (fun x => !f.shift.kills s x) none) = none
    rw [if_neg hne, if_neg hne]
    cases f.cmd <;> rfl
  | _ => rfl

/-- A batch with a message that removes every flow does the same whatever flows there were. -/
theorem wiped {ms : List OfMsg} {d : OfMsg} (hd : d ∈ ms) (s : Slot) (hw : ∀ b, d.onFlow s b = none) (x y : Option Body) :
    ms.foldl (fun b m => m.onFlow s b) x = ms.foldl (fun b m => m.onFlow s b) y := by
  obtain ⟨a, b, rfl⟩ := List.append_of_mem hd
  rw [List.foldl_append, List.foldl_append, List.foldl_cons, List.foldl_cons, hw, hw]

end Faucet.OF
