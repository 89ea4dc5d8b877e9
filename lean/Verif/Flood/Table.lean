import Verif.Flood.Props
import Verif.Encoding.Props
import Mathlib.Tactic.Positivity

/-!
# Flooding: what the switch does

The flood table of a switch that was empty and got, in any order, the flood rules FAUCET sends when it starts.
-/

namespace Faucet.Flood
open Faucet.OF Faucet.Actions

/-- What is sent for the flood table at start: `Valve._add_default_flows` (`faucet/valve.py` 391-419) calls
`initialise_tables`, and `Valve._cold_start_ports_and_vlans` (486-517) adds the VLANs. -/
def bootMsgs (c : FCfg) (vs : List FVlan) : List OfMsg := initialise c ++ vs.flatMap (fun v => floodRules c v true)

/-- A switch without flows. -/
def Blank (sw : Switch) : Prop := ∀ s, sw.flows s = none

/-- The row's destination and EtherType match the packet. -/
def RowMatches (r : Row) (k : Pkt) : Prop :=
  (∀ d m, r.dst = some (d, m) → ∃ x, k.hdr fEthDst = some x ∧ x &&& m = d &&& m) ∧
  (∀ e, r.ethType = some e → k.hdr fEthType = some e)

/-- The packet is for a reserved destination: `01:00:0c:cc:cc:cc` (CDP/VTP), `01:00:0c:cc:cc:cd` (PVST), or one of the
bridge-group addresses `01:80:c2:00:00:00` to `01:80:c2:00:00:0f`. -/
def Reserved (k : Pkt) : Prop :=
  ∃ x, k.hdr fEthDst = some x ∧ (x = 0x01000CCCCCCC ∨ x = 0x01000CCCCCCD ∨ (0x0180C2000000 ≤ x ∧ x ≤ 0x0180C200000F))

/-- The row is used for the VLAN: rows for unicast only if the VLAN floods unknown unicast. -/
def Used (v : FVlan) (r : Row) : Prop := r.unicast = true → v.unicastFlood = true

theorem rowUsed_iff {v : FVlan} {r : Row} : rowUsed v r = true ↔ Used v r := by
  unfold rowUsed Used
  cases r.unicast <;> cases v.unicastFlood <;> simp

theorem and_low {x m n : Nat} (hm : m = 2 ^ 48 - 2 ^ n) (hn : n ≤ 48) (hx : x < 2 ^ 48) : x &&& m = x / 2 ^ n * 2 ^ n := by
  have hm' : m = (2 ^ (48 - n) - 1) <<< n := by
    rw [hm, Nat.shiftLeft_eq, Nat.sub_mul, ← Nat.pow_add, Nat.sub_add_cancel hn, Nat.one_mul]
  have : x &&& m = (x >>> n &&& (2 ^ (48 - n) - 1)) <<< n := by
    rw [hm']
    apply Nat.eq_of_testBit_eq
    intro i
    simp only [Nat.testBit_and, Nat.testBit_shiftLeft, Nat.testBit_shiftRight]
    by_cases hi : n ≤ i
    · simp [hi]
    · simp [hi]
  rw [this, Nat.and_two_pow_sub_one_eq_mod, Nat.shiftRight_eq_div_pow, Nat.shiftLeft_eq, Nat.mod_eq_of_lt]
  rw [Nat.div_lt_iff_lt_mul (by positivity), ← Nat.pow_add, Nat.sub_add_cancel hn]
  exact hx

theorem reserved_iff {k : Pkt} {x : Nat} (hx : k.hdr fEthDst = some x) (hlt : x < 2 ^ 48) :
    (∃ d ∈ reservedDsts, x &&& d.2 = d.1 &&& d.2) ↔ Reserved k := by
  have e1 : x &&& Encoding.macByteMask 6 = x := by
    rw [and_low (n := 0) (by decide) (by omega) hlt]; simp
  have e2 : x &&& 0xFFFFFFFFFFF0 = x / 16 * 16 := and_low (n := 4) (by decide) (by omega) hlt
  have hr : Reserved k ↔ (x = 0x01000CCCCCCC ∨ x = 0x01000CCCCCCD ∨ (0x0180C2000000 ≤ x ∧ x ≤ 0x0180C200000F)) := by
    unfold Reserved
    rw [hx]; simp
  rw [hr]
  have d1 : 0x01000CCCCCCC &&& Encoding.macByteMask 6 = 0x01000CCCCCCC := by decide
  have d2 : 0x01000CCCCCCD &&& Encoding.macByteMask 6 = 0x01000CCCCCCD := by decide
  have d3 : 0x0180C2000000 &&& 0xFFFFFFFFFFF0 = 0x0180C2000000 := by decide
  unfold reservedDsts
  simp only [List.mem_cons, List.not_mem_nil, or_false, exists_eq_or_imp, exists_eq_left]
  rw [e1, e2, d1, d2, d3]
  omega

/-! ## Executing adds -/

theorem exec_adds {ms : List OfMsg} (hadd : ∀ m ∈ ms, ∃ f, m = .flow f ∧ f.cmd = .add) (sw : Switch) :
    (∀ s b, (sw.execAll ms).flows s = some b → (∃ f, .flow f ∈ ms ∧ f.slot = s ∧ f.body = b) ∨ sw.flows s = some b) ∧
    (∀ f, .flow f ∈ ms → ∃ b, (sw.execAll ms).flows f.slot = some b) ∧
    (∀ s b, sw.flows s = some b → ∃ b', (sw.execAll ms).flows s = some b') := by
  induction ms generalizing sw with
  | nil => exact ⟨fun s b h => Or.inr h, fun f h => by simp at h, fun s b h => ⟨b, h⟩⟩
  | cons m ms ih =>
    obtain ⟨f, rfl, hf⟩ := hadd m (by simp)
    obtain ⟨i1, i2, i3⟩ := ih (fun m hm => hadd m (List.mem_cons_of_mem _ hm)) (sw.exec (.flow f))
    have hex : ∀ s, (sw.exec (.flow f)).flows s = if f.slot = s then some f.body else sw.flows s := by
      intro s
      simp [Switch.exec, OfMsg.onFlow, hf]
    refine ⟨?_, ?_, ?_⟩
    · intro s b hb
      rcases i1 s b hb with ⟨f', h1, h2⟩ | h1
      · exact Or.inl ⟨f', List.mem_cons_of_mem _ h1, h2⟩
      · rw [hex] at h1
        split at h1
        · rename_i hs
          exact Or.inl ⟨f, by simp, hs, by simpa using h1⟩
        · exact Or.inr h1
    · intro f' hf'
      rcases List.mem_cons.1 hf' with h1 | h1
      · have : f' = f := by simpa using h1
        subst this
        exact i3 f'.slot f'.body (by rw [hex, if_pos rfl])
      · exact i2 f' h1
    · intro s b hb
      by_cases hs : f.slot = s
      · exact i3 s f.body (by rw [hex, if_pos hs])
      · exact i3 s b (by rw [hex, if_neg hs]; exact hb)

/-- Emissions of an installed flood rule are those of its actions. -/
theorem floodRule_emits (sw : Switch) (acts : List Action) (k : Pkt) :
    (runInst sw (trimInst [.apply acts]) k).1 = (runActs sw.groups acts k).1 := by
  have key : ∀ l : List Action, (runActs sw.groups l k).1 = (runActs sw.groups acts k).1 →
      trimInst [.apply acts] = (if l = [] then [] else [.apply l]) →
      (runInst sw (trimInst [.apply acts]) k).1 = (runActs sw.groups acts k).1 := by
    intro l hl he
    rw [he]
    split
    · rename_i h0
      rw [← hl, h0]
      simp [runInst, instActs]
    · rw [← hl]
      simp [runInst, instActs]
  by_cases hct : acts.any Action.isCt = true
  · refine key acts rfl ?_
    simp only [trimInst, List.any_cons, List.any_nil, Inst.isGoto, Bool.or_false, List.filterMap_cons, List.filterMap_nil,
      trimOne, hct, Bool.not_true, Bool.and_false, Bool.false_eq_true, if_false]
    by_cases h0 : acts = []
    · simp [h0]
    · simp [h0]
  · refine key (trimActions acts) (trimmed_actions_same_emits _ _ _) ?_
    have hct' : acts.any Action.isCt = false := by simpa using hct
    simp only [trimInst, List.any_cons, List.any_nil, Inst.isGoto, Bool.or_false, List.filterMap_cons, List.filterMap_nil,
      trimOne, hct', Bool.not_false, Bool.and_true, if_true]
    by_cases h0 : trimActions acts = []
    · simp [h0]
    · simp [h0]

/-! ## The messages -/

theorem rowRule_hits {v : FVlan} (hv : v.vid < 4096) {r : Row} {i : Option Nat} {k : Pkt} {t : Nat × Nat} {ts : List (Nat × Nat)}
    (hk : k.tags = t :: ts) (ht : t.1 < 4096) :
    hitsAll (r.items v.vid i) k = true ↔
      (∀ n, i = some n → k.hdr fInPort = some n) ∧ RowMatches r k ∧ t.1 = v.vid := by
  have hvid : (⟨fVlanVid, vidPresent v.vid, none⟩ : MatchItem).hits k = true ↔ t.1 = v.vid := by
    unfold MatchItem.hits Pkt.field
    rw [if_pos rfl, hk]
    simp only [maskEq, beq_iff_eq]
    exact ⟨fun h => Encoding.vid_present_injective ht hv h, fun h => by rw [h]⟩
  have hport : ∀ n, (⟨fInPort, n, none⟩ : MatchItem).hits k = true ↔ k.hdr fInPort = some n :=
    fun n => hits_exact (by decide) (by decide)
  have htype : ∀ n, (⟨fEthType, n, none⟩ : MatchItem).hits k = true ↔ k.hdr fEthType = some n :=
    fun n => hits_exact (by decide) (by decide)
  have hdst : ∀ d m, (⟨fEthDst, d, some m⟩ : MatchItem).hits k = true ↔ ∃ x, k.hdr fEthDst = some x ∧ x &&& m = d &&& m :=
    fun d m => hits_masked (by decide) (by decide)
  obtain ⟨u, e, d⟩ := r
  unfold Row.items hitsAll RowMatches
  rw [List.all_append, List.all_append, List.all_append]
  cases i <;> cases e <;> rcases d with _ | ⟨d, m⟩ <;>
    simp only [List.all_cons, List.all_nil, Bool.and_true, Bool.true_and, Bool.and_eq_true, hvid, hport, htype, hdst] <;>
    simp [and_assoc]

theorem hits_reserved {d : Nat × Nat} {k : Pkt} :
    hitsAll [⟨fEthDst, d.1, some d.2⟩] k = true ↔ ∃ x, k.hdr fEthDst = some x ∧ x &&& d.2 = d.1 &&& d.2 := by
  unfold hitsAll
  simp only [List.all_cons, List.all_nil, Bool.and_true]
  exact hits_masked (by decide) (by decide)

/-- The rules of one row of one VLAN when starting. -/
inductive IsRule (c : FCfg) (v : FVlan) (r : Row) : OfMsg → Prop
  | vlan : c.combinatorial = false → IsRule c v r (floodRule c .add (r.items v.vid none) r.priority (v.vlanActs r.unicast))
  | port {p : FPort} : p ∈ v.ports → (r.unicast = true → p.unicastFlood = true) → p.physUp = true →
      (v.portActs r.unicast p false r.ethType.isNone).1 ≠ [] →
      (c.combinatorial = false → ¬ (sameSet ((outputNonOutput (v.vlanActs r.unicast)).2.1.filter (fun n => n != p.number))
        (v.portActs r.unicast p false r.ethType.isNone).2.1 = true ∧
        sameActs (outputNonOutput (v.vlanActs r.unicast)).2.2 (v.portActs r.unicast p false r.ethType.isNone).2.2 = true)) →
      IsRule c v r (portRule c .add v r p (v.portActs r.unicast p false r.ethType.isNone).1)

theorem mem_floodPorts {l : List FPort} {eu : Bool} {q : FPort} :
    q ∈ floodPorts l eu ↔ q ∈ l ∧ (eu = true → q.unicastFlood = true) := by
  unfold floodPorts
  cases eu <;> simp

theorem portActs_up {v : FVlan} {eu ae er : Bool} {p : FPort} (h : (v.portActs eu p ae er).1 ≠ []) : p.physUp = true := by
  unfold FVlan.portActs at h
  split at h
  · assumption
  · simp at h

theorem mem_maskRules {c : FCfg} (hg : c.useGroups = false) {v : FVlan} {r : Row} {m : OfMsg} :
    m ∈ maskRules c .add true v r ↔ IsRule c v r m := by
  unfold maskRules
  by_cases hc : c.combinatorial = true
  · rw [if_pos hc, List.mem_flatMap]
    constructor
    · rintro ⟨p, hp, hm⟩
      obtain ⟨hp1, hp2⟩ := mem_floodPorts.1 hp
      unfold combinatorialRule at hm
      simp only at hm
      split at hm
      · simp at hm
      · rename_i hne
        simp only [List.mem_singleton] at hm
        subst hm
        exact .port hp1 hp2 (portActs_up hne) hne (fun h => by rw [hc] at h; simp at h)
    · intro h
      cases h with
      | vlan h => rw [hc] at h; simp at h
      | @port p h1 h2 h3 h4 h5 =>
        refine ⟨p, mem_floodPorts.2 ⟨h1, h2⟩, ?_⟩
        unfold combinatorialRule
        simp only
        rw [if_neg h4]; simp
  · have hcf : c.combinatorial = false := by simpa using hc
    rw [if_neg hc, hg, List.mem_append, List.mem_flatMap]
    simp only [Bool.false_eq_true, if_false, List.mem_singleton]
    constructor
    · rintro (hm | ⟨p, hp, hm⟩)
      · subst hm; exact .vlan hcf
      · obtain ⟨hp1, hp2⟩ := mem_floodPorts.1 hp
        unfold besideVlan at hm
        simp only [if_true] at hm
        split at hm
        · simp at hm
        · rename_i hne
          split at hm
          · simp at hm
          · rename_i hns
            simp only [List.mem_singleton] at hm
            subst hm
            refine .port hp1 hp2 (portActs_up hne) hne (fun _ => ?_)
            rw [Bool.and_eq_true] at hns
            exact hns
    · intro h
      cases h with
      | vlan h => exact Or.inl rfl
      | @port p h1 h2 h3 h4 h5 =>
        refine Or.inr ⟨p, mem_floodPorts.2 ⟨h1, h2⟩, ?_⟩
        unfold besideVlan
        simp only
        rw [if_neg h4, if_neg]
        · simp
        · rw [Bool.and_eq_true]; exact h5 hcf

theorem mem_bootMsgs {c : FCfg} (hg : c.useGroups = false) {vs : List FVlan} {m : OfMsg} :
    m ∈ bootMsgs c vs ↔
      (∃ d ∈ reservedDsts, m = c.table.flowdrop [⟨fEthDst, d.1, some d.2⟩] (maskPriority (some d.2))) ∨
      ∃ v ∈ vs, ∃ r ∈ c.rows, Used v r ∧ IsRule c v r m := by
  unfold bootMsgs initialise floodRules multioutRules
  simp only [← rowUsed_iff, hg, Bool.false_eq_true, if_false, List.append_nil, List.mem_append, List.mem_map, List.mem_flatMap,
    List.mem_filter, mem_maskRules hg, and_assoc]
  constructor
  · rintro (⟨d, h1, h2⟩ | h)
    · exact Or.inl ⟨d, h1, h2.symm⟩
    · exact Or.inr h
  · rintro (⟨d, h1, h2⟩ | h)
    · exact Or.inl ⟨d, h1, h2.symm⟩
    · exact Or.inr h

theorem boot_adds {c : FCfg} (hg : c.useGroups = false) {vs : List FVlan} {m : OfMsg} (hm : m ∈ bootMsgs c vs) :
    ∃ f, m = .flow f ∧ f.cmd = .add ∧ f.table = c.table.id := by
  rcases (mem_bootMsgs hg).1 hm with ⟨d, _, rfl⟩ | ⟨v, _, r, _, _, hr⟩
  · exact ⟨_, rfl, rfl, rfl⟩
  · cases hr with
    | vlan => exact ⟨_, rfl, rfl, rfl⟩
    | port => exact ⟨_, rfl, rfl, rfl⟩

/-! ## The table -/

/-- The situation of the theorems below: switch `sw` was blank and executed, in any order, the start messages of the VLANs
`vs`, whose VIDs are valid and distinct; the packet is of VLAN `v` and came in on its up member `p`. -/
structure Setup (c : FCfg) (vs : List FVlan) (sw : Switch) (v : FVlan) (p : FPort) (k : Pkt) : Prop where
  noGroups : c.useGroups = false
  ran : ∃ sw0 ms, Blank sw0 ∧ ms.Perm (bootMsgs c vs) ∧ sw = sw0.execAll ms
  vids : ∀ w ∈ vs, w.vid < 4096
  distinct : ∀ w ∈ vs, ∀ w' ∈ vs, w.vid = w'.vid → w = w'
  wf : WF v
  vlan : v ∈ vs
  port : p ∈ v.ports
  up : p.physUp = true
  pkt : InVlan v p k
  dst : ∀ x, k.hdr fEthDst = some x → x < 2 ^ 48

theorem Setup.rule_of_flow {c : FCfg} {vs : List FVlan} {sw : Switch} {v : FVlan} {p : FPort} {k : Pkt}
    (S : Setup c vs sw v p k) {s : Slot} {b : Body} (h : sw.flows s = some b) :
    ∃ f, .flow f ∈ bootMsgs c vs ∧ f.slot = s ∧ f.body = b := by
  obtain ⟨sw0, ms, hb, hperm, rfl⟩ := S.ran
  have hadd : ∀ m ∈ ms, ∃ f, m = .flow f ∧ f.cmd = .add := by
    intro m hm
    obtain ⟨f, h1, h2, _⟩ := boot_adds S.noGroups (hperm.mem_iff.1 hm)
    exact ⟨f, h1, h2⟩
  rcases (exec_adds hadd sw0).1 s b h with ⟨f, h1, h2⟩ | h1
  · exact ⟨f, hperm.mem_iff.1 h1, h2⟩
  · rw [hb s] at h1; simp at h1

theorem Setup.flow_of_rule {c : FCfg} {vs : List FVlan} {sw : Switch} {v : FVlan} {p : FPort} {k : Pkt}
    (S : Setup c vs sw v p k) {f : FlowMod} (h : .flow f ∈ bootMsgs c vs) : ∃ b, sw.flows f.slot = some b := by
  obtain ⟨sw0, ms, hb, hperm, rfl⟩ := S.ran
  have hadd : ∀ m ∈ ms, ∃ f, m = .flow f ∧ f.cmd = .add := by
    intro m hm
    obtain ⟨f, h1, h2, _⟩ := boot_adds S.noGroups (hperm.mem_iff.1 hm)
    exact ⟨f, h1, h2⟩
  exact (exec_adds hadd sw0).2.1 f (hperm.mem_iff.2 h)

theorem Setup.best {c : FCfg} {vs : List FVlan} {sw : Switch} {v : FVlan} {p : FPort} {k : Pkt}
    (S : Setup c vs sw v p k) {s : Slot} {b : Body} (h : Hit sw c.table.id k s b) {f : FlowMod}
    (hf : .flow f ∈ bootMsgs c vs) (hh : hitsAll f.mtch.items k = true) : f.priority ≤ s.priority := by
  obtain ⟨b', hb'⟩ := S.flow_of_rule hf
  obtain ⟨f', h1, _, h3⟩ := boot_adds S.noGroups hf
  have : f = f' := by simpa using h1
  subst this
  exact h.best f.slot b' hb' h3 hh

theorem Setup.row_hits {c : FCfg} {vs : List FVlan} {sw : Switch} {v : FVlan} {p : FPort} {k : Pkt}
    (S : Setup c vs sw v p k) {w : FVlan} (hw : w ∈ vs) {r : Row} {i : Option Nat} :
    hitsAll (r.items w.vid i) k = true ↔ (∀ n, i = some n → n = p.number) ∧ RowMatches r k ∧ w = v := by
  obtain ⟨pcp, rest, hk⟩ := S.pkt.tag
  rw [rowRule_hits (S.vids w hw) hk (S.vids v S.vlan), S.pkt.port]
  constructor
  · rintro ⟨h1, h2, h3⟩
    exact ⟨fun n hn => by simpa using (h1 n hn).symm, h2, S.distinct w hw v S.vlan h3.symm⟩
  · rintro ⟨h1, h2, h3⟩
    exact ⟨fun n hn => by rw [h1 n hn], h2, by rw [h3]⟩

/-- A port that somebody is due a copy from has flood actions. -/
theorem due_has_acts {v : FVlan} (h : WF v) {p : FPort} (hp : p ∈ v.ports) (hup : p.physUp = true) {eu er : Bool}
    {k : Pkt} (hk : InVlan v p k) {q : FPort} (hd : Due v p eu false er q) : (v.portActs eu p false er).1 ≠ [] := by
  intro h0
  obtain ⟨e, he, _⟩ := (port_flood_delivers h hp hup eu false er hk (fun _ => none)).due q hd
  rw [h0] at he
  simp [runActs, copiesTo] at he

/-- **Flooding.** Whatever rule of the flood table the switch picks for the packet, either it is a drop rule for a reserved
destination, or there is a row of the flood destinations, matching the packet and used for the VLAN, such that the flood is
safe; and it delivers to exactly the members that are due a copy, if each port has its own rule or if there is such a
member and the ingress port takes part in that kind of flood. -/
theorem flood_table {c : FCfg} {vs : List FVlan} {sw : Switch} {v : FVlan} {p : FPort} {k : Pkt}
    (S : Setup c vs sw v p k) {s : Slot} {b : Body} (h : Hit sw c.table.id k s b) :
    (Reserved k ∧ b.inst = []) ∨
    ∃ r ∈ c.rows, Used v r ∧ RowMatches r k ∧ r.priority ≤ s.priority ∧ s.priority ≤ r.priority + 1 ∧
      Safe v p k (runInst sw b.inst k).1 ∧
      (c.combinatorial = true ∨
        (∃ q, Due v p r.unicast false r.ethType.isNone q) ∧ (r.unicast = true → p.unicastFlood = true) →
        Delivered v p r.unicast false r.ethType.isNone k (runInst sw b.inst k).1) := by
  obtain ⟨f, hf, hfs, hfb⟩ := S.rule_of_flow h.present
  have hhit := h.hits
  rw [← hfs] at hhit
  rcases (mem_bootMsgs S.noGroups).1 hf with ⟨d, hd, he⟩ | ⟨w, hw, r, hr, hru, hrule⟩
  · left
    have he' := OfMsg.flow.inj he
    rw [he'] at hhit hfb
    obtain ⟨x, hx, hxd⟩ := hits_reserved.1 hhit
    refine ⟨(reserved_iff hx (S.dst x hx)).1 ⟨d, hd, hxd⟩, ?_⟩
    rw [← hfb]; rfl
  · right
    generalize hm : OfMsg.flow f = m at hrule
    cases hrule with
    | vlan hc =>
      have hm' := OfMsg.flow.inj hm
      rw [hm'] at hhit hfb hfs
      obtain ⟨_, hrm, hwv⟩ := (S.row_hits hw (r := r) (i := none)).1 hhit
      subst hwv
      have hem : (runInst sw b.inst k).1 = (runActs sw.groups (w.vlanActs r.unicast) k).1 := by
        rw [← hfb]; exact floodRule_emits _ _ _
      have hsp : s.priority = r.priority := by rw [← hfs]; rfl
      refine ⟨r, hr, hru, hrm, by omega, by omega, ?_, ?_⟩
      · rw [hem]; exact vlan_flood_safe S.wf S.port S.pkt _
      · rintro (hcc | ⟨⟨q, hq⟩, hpu⟩)
        · rw [hc] at hcc; simp at hcc
        · have hne := due_has_acts S.wf S.port S.up S.pkt hq
          rw [hem]
          by_cases hsame : sameSet ((outputNonOutput (w.vlanActs r.unicast)).2.1.filter (fun n => n != p.number))
              (w.portActs r.unicast p false r.ethType.isNone).2.1 = true ∧
              sameActs (outputNonOutput (w.vlanActs r.unicast)).2.2 (w.portActs r.unicast p false r.ethType.isNone).2.2 = true
          · exact vlan_flood_delivers S.wf S.port S.up S.pkt _ hne hsame.1
          · exfalso
            have hpr : portRule c .add w r p (w.portActs r.unicast p false r.ethType.isNone).1 ∈ bootMsgs c vs :=
              (mem_bootMsgs S.noGroups).2 (Or.inr ⟨w, hw, r, hr, hru, .port S.port hpu S.up hne (fun _ => hsame)⟩)
            have := S.best h hpr ((S.row_hits hw (i := some p.number)).2 ⟨fun n hn => by simpa using hn.symm, hrm, rfl⟩)
            simp only at this
            omega
    | @port p' hp' hpu hup hne _ =>
      have hm' := OfMsg.flow.inj hm
      rw [hm'] at hhit hfb hfs
      obtain ⟨hpn, hrm, hwv⟩ := (S.row_hits hw (r := r) (i := some p'.number)).1 hhit
      subst hwv
      have hpp : p' = p := S.wf.eq_of_number hp' S.port (hpn _ rfl)
      subst hpp
      have hem : (runInst sw b.inst k).1 = (runActs sw.groups (w.portActs r.unicast p' false r.ethType.isNone).1 k).1 := by
        rw [← hfb]; exact floodRule_emits _ _ _
      have hsp : s.priority = r.priority + 1 := by rw [← hfs]; rfl
      have hdel := port_flood_delivers S.wf S.port S.up r.unicast false r.ethType.isNone S.pkt sw.groups
      refine ⟨r, hr, hru, hrm, by omega, by omega, ?_, ?_⟩
      · rw [hem]; exact hdel.safe S.wf
      · intro _; rw [hem]; exact hdel

/-- If no rule of the flood table matches a packet then nobody is due a copy of it. -/
theorem flood_miss {c : FCfg} {vs : List FVlan} {sw : Switch} {v : FVlan} {p : FPort} {k : Pkt}
    (S : Setup c vs sw v p k) (h : Miss sw c.table.id k) {r : Row} (hr : r ∈ c.rows) (hru : Used v r)
    (hrm : RowMatches r k) (hpu : r.unicast = true → p.unicastFlood = true) (q : FPort) :
    ¬ Due v p r.unicast false r.ethType.isNone q := by
  intro hd
  have hne := due_has_acts S.wf S.port S.up S.pkt hd
  have habs : ∀ f, .flow f ∈ bootMsgs c vs → f.table = c.table.id → hitsAll f.mtch.items k = true → False := by
    intro f hf ht hh
    obtain ⟨b, hb⟩ := S.flow_of_rule hf
    have := h f.slot b hb ht
    rw [show f.slot.items = f.mtch.items from rfl, hh] at this
    simp at this
  by_cases hc : c.combinatorial = true
  · refine habs _ ((mem_bootMsgs S.noGroups).2 (Or.inr ⟨v, S.vlan, r, hr, hru,
      .port S.port hpu S.up hne (fun h => by rw [hc] at h; simp at h)⟩)) rfl ?_
    exact (S.row_hits S.vlan (i := some p.number)).2 ⟨fun n hn => by simpa using hn.symm, hrm, rfl⟩
  · refine habs _ ((mem_bootMsgs S.noGroups).2 (Or.inr ⟨v, S.vlan, r, hr, hru, .vlan (by simpa using hc)⟩)) rfl ?_
    exact (S.row_hits S.vlan (i := none)).2 ⟨fun n hn => by simp at hn, hrm, rfl⟩

/-! ## Priorities -/

/-- A destination mask with more bits gives a rule of higher priority. -/
theorem longer_mask_higher_priority {a b : Nat} (h : a < b) (hb : b ≤ 48) :
    maskPriority (some (2 ^ 48 - 2 ^ (48 - a))) < maskPriority (some (2 ^ 48 - 2 ^ (48 - b))) := by
  unfold maskPriority
  rw [Encoding.macMaskBits_prefix (by omega), Encoding.macMaskBits_prefix hb]
  omega

/-- Two masked values that agree with one value agree on the bits both masks have. -/
theorem mask_clash {x a m b n : Nat} (h1 : x &&& m = a &&& m) (h2 : x &&& n = b &&& n) :
    a &&& m &&& n = b &&& m &&& n := by
  have : x &&& m &&& n = x &&& n &&& m := by rw [Nat.and_assoc, Nat.and_comm m n, ← Nat.and_assoc]
  rw [← h1, this, h2, Nat.and_assoc, Nat.and_comm n m, ← Nat.and_assoc]

/-- Whatever else floods, packets to reserved destinations (CDP/VTP, PVST, bridge-group addresses) are dropped. -/
theorem reserved_dropped {c : FCfg} {vs : List FVlan} {sw : Switch} {v : FVlan} {p : FPort} {k : Pkt}
    (S : Setup c vs sw v p k) (hres : Reserved k) {s : Slot} {b : Body} (h : Hit sw c.table.id k s b) : b.inst = [] := by
  rcases flood_table S h with h1 | ⟨r, hr, _, hrm, _, hp, _⟩
  · exact h1.2
  · exfalso
    obtain ⟨x, hx, _⟩ := id hres
    obtain ⟨d, hd, hxd⟩ := (reserved_iff hx (S.dst x hx)).2 hres
    have hbest : maskPriority (some d.2) ≤ s.priority := by
      have hm : c.table.flowdrop [⟨fEthDst, d.1, some d.2⟩] (maskPriority (some d.2)) ∈ bootMsgs c vs :=
        (mem_bootMsgs S.noGroups).2 (Or.inl ⟨d, hd, rfl⟩)
      unfold Table.flowdrop Table.flowadd at hm
      exact S.best h hm (hits_reserved.2 ⟨x, hx, hxd⟩)
    have hrows : r ∈ floodDsts ++ restrictedDsts := by
      unfold FCfg.rows at hr
      split at hr
      · exact hr
      · exact List.mem_append_left _ hr
    have key : ∀ d ∈ reservedDsts, ∀ r ∈ floodDsts ++ restrictedDsts, r.priority + 1 < maskPriority (some d.2) ∨
        (∃ y ∈ r.dst.toList, d.1 &&& d.2 &&& y.2 ≠ y.1 &&& d.2 &&& y.2) := by decide +kernel
    rcases key d hd r hrows with hlt | ⟨y, hy, hne⟩
    · omega
    · obtain ⟨x', hx', hxm⟩ := hrm.1 y.1 y.2 (by simpa using hy)
      have : x' = x := by rw [hx] at hx'; simpa using hx'.symm
      subst this
      exact hne (mask_clash hxd hxm)

/-- The rule picked for a packet comes from the matching row of highest priority. -/
theorem most_specific_row {c : FCfg} {vs : List FVlan} {sw : Switch} {v : FVlan} {p : FPort} {k : Pkt}
    (S : Setup c vs sw v p k) (hres : ¬ Reserved k) {s : Slot} {b : Body} (h : Hit sw c.table.id k s b) :
    ∃ r ∈ c.rows, Used v r ∧ RowMatches r k ∧
      (∀ r' ∈ c.rows, Used v r' → RowMatches r' k →
        c.combinatorial = false ∨ ((r'.unicast = true → p.unicastFlood = true) ∧ ∃ q, Due v p r'.unicast false r'.ethType.isNone q) →
        r'.priority ≤ r.priority) ∧
      (c.combinatorial = true ∨
        (∃ q, Due v p r.unicast false r.ethType.isNone q) ∧ (r.unicast = true → p.unicastFlood = true) →
        Delivered v p r.unicast false r.ethType.isNone k (runInst sw b.inst k).1) := by
  rcases flood_table S h with h1 | ⟨r, hr, hru, hrm, hp1, hp2, _, hdel⟩
  · exact absurd h1.1 hres
  · refine ⟨r, hr, hru, hrm, ?_, hdel⟩
    intro r' hr' hru' hrm' hcase
    have hrows : ∀ r ∈ c.rows, r ∈ floodDsts ++ restrictedDsts := by
      intro r hr
      unfold FCfg.rows at hr
      split at hr
      · exact hr
      · exact List.mem_append_left _ hr
    have key : ∀ r ∈ floodDsts ++ restrictedDsts, ∀ r' ∈ floodDsts ++ restrictedDsts,
        r'.priority ≤ r.priority + 1 → r'.priority ≤ r.priority := by decide +kernel
    apply key r (hrows r hr) r' (hrows r' hr')
    by_cases hc : c.combinatorial = false
    · have := S.best h ((mem_bootMsgs S.noGroups).2 (Or.inr ⟨v, S.vlan, r', hr', hru', .vlan hc⟩))
        ((S.row_hits S.vlan (i := none)).2 ⟨fun n hn => by simp at hn, hrm', rfl⟩)
      simp only at this
      omega
    · obtain ⟨hpu, q, hq⟩ := hcase.resolve_left hc
      have hne := due_has_acts S.wf S.port S.up S.pkt hq
      have := S.best h ((mem_bootMsgs S.noGroups).2 (Or.inr ⟨v, S.vlan, r', hr', hru',
          .port S.port hpu S.up hne (fun h => absurd h hc)⟩))
        ((S.row_hits S.vlan (i := some p.number)).2 ⟨fun n hn => by simpa using hn.symm, hrm', rfl⟩)
      simp only at this
      omega

/-- Among the rows for the same EtherType, the matching row of highest priority has the longest mask. -/
theorem row_priority_iff {r r' : Row} (he : r.ethType = r'.ethType) :
    r'.priority ≤ r.priority ↔ Encoding.macMaskBits (r'.dst.map Prod.snd) ≤ Encoding.macMaskBits (r.dst.map Prod.snd) := by
  unfold Row.priority maskPriority
  rw [he]
  omega

/-- A broadcast is delivered to the members due a broadcast. -/
theorem broadcast_delivered {c : FCfg} {vs : List FVlan} {sw : Switch} {v : FVlan} {p : FPort} {k : Pkt}
    (S : Setup c vs sw v p k) (hr : c.restrictedBcast = false) (hk : k.hdr fEthDst = some 0xFFFFFFFFFFFF)
    {q : FPort} (hq : Due v p false false true q) {s : Slot} {b : Body} (h : Hit sw c.table.id k s b) :
    Delivered v p false false true k (runInst sw b.inst k).1 := by
  have hres : ¬ Reserved k := by
    rintro ⟨x, hx, h⟩
    rw [hk] at hx
    simp only [Option.some.injEq] at hx
    omega
  have hrows : c.rows = floodDsts := by unfold FCfg.rows; rw [hr]; simp
  obtain ⟨r, hr, hru, hrm, hbest, hdel⟩ := most_specific_row S hres h
  have hb : ⟨false, none, some (0xFFFFFFFFFFFF, Encoding.macByteMask 6)⟩ ∈ floodDsts := by decide
  have hle := hbest _ (by rw [hrows]; exact hb) (fun h => by simp at h)
    ⟨fun d m hd => by simp at hd; obtain ⟨rfl, rfl⟩ := hd; exact ⟨_, hk, rfl⟩, fun e he => by simp at he⟩
    (Or.inr ⟨fun h => by simp at h, q, hq⟩)
  have key : ∀ r ∈ floodDsts, Row.priority ⟨false, none, some (0xFFFFFFFFFFFF, Encoding.macByteMask 6)⟩ ≤ r.priority →
      r.unicast = false ∧ r.ethType.isNone = true := by decide +kernel
  obtain ⟨k1, k2⟩ := key r (hrows ▸ hr) hle
  rw [k1, k2] at hdel
  exact hdel (Or.inr ⟨⟨q, hq⟩, fun h => by simp at h⟩)

theorem unicast_row {r : Row} (hr : r ∈ floodDsts ++ restrictedDsts) {k : Pkt} {x : Nat} (hk : k.hdr fEthDst = some x)
    (hx : x.testBit 40 = false) (hm : RowMatches r k) : r = ⟨true, none, none⟩ := by
  have key : ∀ r ∈ floodDsts ++ restrictedDsts, r = ⟨true, none, none⟩ ∨
      ∃ y ∈ r.dst.toList, y.1.testBit 40 = true ∧ y.2.testBit 40 = true := by decide +kernel
  rcases key r hr with h1 | ⟨y, hy, h1, h2⟩
  · exact h1
  · obtain ⟨x', hx', he⟩ := hm.1 y.1 y.2 (by simpa using hy)
    have : x' = x := by rw [hk] at hx'; simpa using hx'.symm
    subst this
    have := congrArg (fun n => n.testBit 40) he
    simp [Nat.testBit_and, hx, h1, h2] at this

/-- An unknown unicast packet (destination without the group bit) is delivered to the members due one, and if the VLAN
does not flood unknown unicast no rule matches it. -/
theorem unicast_delivered {c : FCfg} {vs : List FVlan} {sw : Switch} {v : FVlan} {p : FPort} {k : Pkt}
    (S : Setup c vs sw v p k) {x : Nat} (hk : k.hdr fEthDst = some x) (hx : x.testBit 40 = false)
    {s : Slot} {b : Body} (h : Hit sw c.table.id k s b) :
    v.unicastFlood = true ∧ (p.unicastFlood = true → (∃ q, Due v p true false true q) →
      Delivered v p true false true k (runInst sw b.inst k).1) := by
  have hres : ¬ Reserved k := by
    rintro ⟨y, hy, h⟩
    rw [hk] at hy
    have hxy : x = y := by simpa using hy
    subst hxy
    have hb : x.testBit 40 = true := by
      rw [Nat.testBit_eq_decide_div_mod_eq]
      simp only [decide_eq_true_eq]
      omega
    rw [hx] at hb; simp at hb
  obtain ⟨r, hr, hru, hrm, _, hdel⟩ := most_specific_row S hres h
  have hrows : r ∈ floodDsts ++ restrictedDsts := by
    unfold FCfg.rows at hr
    split at hr
    · exact hr
    · exact List.mem_append_left _ hr
  have hre := unicast_row hrows hk hx hrm
  subst hre
  exact ⟨hru rfl, fun hp hq => hdel (Or.inr ⟨hq, fun _ => hp⟩)⟩

end Faucet.Flood
