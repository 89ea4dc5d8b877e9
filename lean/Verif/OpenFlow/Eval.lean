import Verif.OpenFlow.Datapath
import Verif.FlowReorder.Exec
import Mathlib.Tactic.ByContra

/-!
# Running a switch on concrete packets

For examples: what a switch that started empty does with a packet, computed. The theorems say that the result is one that
the relation `Proc` allows. Models no code.
-/

namespace Faucet.OF

def emptySwitch : Switch := ⟨fun _ => none, fun _ => none, fun _ => none⟩

/-- The slots that a batch of messages can fill. -/
def addSlots (ms : List OfMsg) : List Slot :=
  ms.filterMap (fun m => match m with | .flow f => if f.cmd = .add then some f.slot else none | _ => none)

def Within (sw : Switch) (slots : List Slot) : Prop := ∀ s b, sw.flows s = some b → s ∈ slots

theorem within_empty : Within emptySwitch [] := fun s b h => by cases h

theorem within_exec {sw : Switch} {slots : List Slot} (h : Within sw slots) (ms : List OfMsg) :
    Within (sw.execAll ms) (slots ++ addSlots ms) := by
  induction ms generalizing sw slots with
  | nil => simpa [addSlots, Switch.execAll] using h
  | cons m ms ih =>
    have h1 : Within (sw.exec m) (slots ++ addSlots [m]) := by
      intro s b hb
      have hold : sw.flows s = some b → s ∈ slots ++ addSlots [m] := fun hx => List.mem_append_left _ (h s b hx)
      have hb : m.onFlow s (sw.flows s) = some b := hb
      cases m with
      | flow f =>
        unfold OfMsg.onFlow at hb
        cases hc : f.cmd with
        | add =>
          simp only [hc] at hb
          split at hb
          · rename_i hs
            rw [← hs]
            simp [addSlots, hc]
          · exact hold hb
        | modifyStrict =>
          simp only [hc] at hb
          split at hb
          · obtain ⟨y, hy, -⟩ := Option.map_eq_some_iff.1 hb
            exact List.mem_append_left _ (h s y hy)
          · exact hold hb
        | delete => simp only [hc] at hb; exact hold (Option.filter_eq_some_iff.1 hb).1
        | deleteStrict => simp only [hc] at hb; exact hold (Option.filter_eq_some_iff.1 hb).1
      | _ => exact hold (Option.filter_eq_some_iff.1 hb).1
    have h2 := ih h1
    have : slots ++ addSlots [m] ++ addSlots ms = slots ++ addSlots (m :: ms) := by
      rw [List.append_assoc]
      congr 1
      simp only [addSlots]
      rw [← List.filterMap_append]
      rfl
    rw [this] at h2
    exact h2

/-- The flows of a table that match the packet. -/
def matching (slots : List Slot) (sw : Switch) (t : Nat) (k : Pkt) : List (Slot × Body) :=
  slots.filterMap (fun s => if s.table == t && hitsAll s.items k then (sw.flows s).map (fun b => (s, b)) else none)

/-- One with the highest priority. -/
def pick : List (Slot × Body) → Option (Slot × Body)
  | [] => none
  | x :: xs => match pick xs with
    | none => some x
    | some y => if x.1.priority < y.1.priority then some y else some x

theorem pick_none : ∀ {l : List (Slot × Body)}, pick l = none → l = []
  | [], _ => rfl
  | x :: xs, h => by
    unfold pick at h
    split at h
    · cases h
    · split at h <;> cases h

theorem pick_some : ∀ {l : List (Slot × Body)} {x : Slot × Body}, pick l = some x → x ∈ l ∧ ∀ y ∈ l, y.1.priority ≤ x.1.priority
  | [], _, h => by cases h
  | a :: l, x, h => by
    unfold pick at h
    split at h
    · rename_i hn
      cases h
      rw [pick_none hn]
      simp
    · rename_i y hy
      obtain ⟨h1, h2⟩ := pick_some hy
      split at h
      · cases h
        refine ⟨List.mem_cons_of_mem _ h1, ?_⟩
        intro z hz
        rcases List.mem_cons.1 hz with rfl | hz
        · omega
        · exact h2 z hz
      · cases h
        refine ⟨List.mem_cons_self, ?_⟩
        intro z hz
        rcases List.mem_cons.1 hz with rfl | hz
        · omega
        · have := h2 z hz; omega

def evalProc (slots : List Slot) (sw : Switch) : Nat → Nat → Pkt → Option (List Emit)
  | 0, _, _ => none
  | n + 1, t, k =>
    match pick (matching slots sw t k) with
    | none => some []
    | some x =>
      match instGoto x.2.inst with
      | none => some (runInst sw x.2.inst k).1
      | some t' => (evalProc slots sw n t' (runInst sw x.2.inst k).2).map ((runInst sw x.2.inst k).1 ++ ·)

theorem mem_matching {slots : List Slot} {sw : Switch} {t : Nat} {k : Pkt} {x : Slot × Body} :
    x ∈ matching slots sw t k ↔ x.1 ∈ slots ∧ x.1.table = t ∧ hitsAll x.1.items k = true ∧ sw.flows x.1 = some x.2 := by
  unfold matching
  rw [List.mem_filterMap]
  constructor
  · rintro ⟨s, hs, h⟩
    split at h
    · rename_i hc
      simp only [Bool.and_eq_true, beq_iff_eq] at hc
      obtain ⟨b, hb, rfl⟩ := Option.map_eq_some_iff.1 h
      exact ⟨hs, hc.1, hc.2, hb⟩
    · cases h
  · rintro ⟨h1, h2, h3, h4⟩
    exact ⟨x.1, h1, by simp [h2, h3, h4]⟩

theorem evalProc_sound {slots : List Slot} {sw : Switch} (hw : Within sw slots) : ∀ {n t : Nat} {k : Pkt} {es : List Emit},
    evalProc slots sw n t k = some es → Proc sw t k es
  | 0, _, _, _, h => by cases h
  | n + 1, t, k, es, h => by
    unfold evalProc at h
    split at h
    · rename_i hp
      cases h
      refine .miss ?_
      intro s b hb ht
      by_contra hh
      have : (s, b) ∈ matching slots sw t k := mem_matching.2 ⟨hw s b hb, ht, by simpa using hh, hb⟩
      rw [pick_none hp] at this
      cases this
    · rename_i x hp
      obtain ⟨h1, h2⟩ := pick_some hp
      obtain ⟨-, ht, hh, hb⟩ := mem_matching.1 h1
      have hhit : Hit sw t k x.1 x.2 :=
        ⟨hb, ht, hh, fun s' b' hb' ht' hh' => h2 (s', b') (mem_matching.2 ⟨hw s' b' hb', ht', hh', hb'⟩)⟩
      split at h
      · rename_i hg
        cases h
        exact .done hhit hg
      · rename_i t' hg
        obtain ⟨es', h3, rfl⟩ := Option.map_eq_some_iff.1 h
        exact .next hhit hg (evalProc_sound hw h3)

/-- Ports and tags of the copies. -/
def outs (es : List Emit) : List (Nat × List (Nat × Nat)) := es.map (fun e => (e.port, e.tags))

theorem evalProc_outs {slots : List Slot} {sw : Switch} (hw : Within sw slots) {n t : Nat} {k : Pkt}
    {l : List (Nat × List (Nat × Nat))} (h : (evalProc slots sw n t k).map outs = some l) :
    ∃ es, Proc sw t k es ∧ outs es = l := by
  obtain ⟨es, h1, h2⟩ := Option.map_eq_some_iff.1 h
  exact ⟨es, evalProc_sound hw h1, h2⟩

end Faucet.OF
