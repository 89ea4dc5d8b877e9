import Verif.Features.AclModel
import Verif.Features.Props
import Verif.Acl.Lemmas

/-!
# What a rule of an ACL matches and sets does not depend on the table, the port or the VLAN it is made for
-/

namespace Faucet.Features
open Faucet.OF
open Faucet.Acl (Acl Enc Ctx Rule Key Val matchStep matchFromDict keyField withPort withVlan ruleMatch ruleInst EncOk)
open Faucet.Pipeline (Tbl Conf)

/-! ## Matches -/

/-- A dictionary of match values by field and whether there is a mask. -/
def kwShape (kw : Dict Nat (Nat × Option Nat)) : Dict Nat Bool := List.map (fun e => (e.1, e.2.2.isSome)) kw

theorem kwShape_set (kw : Dict Nat (Nat × Option Nat)) (f : Nat) (x : Nat × Option Nat) :
    kwShape (kw.set f x) = (kwShape kw).set f x.2.isSome := by
  induction kw with
  | nil => rfl
  | cons e kw ih =>
    obtain ⟨k, v⟩ := e
    show kwShape (Dict.set ((k, v) :: kw) f x) = Dict.set ((k, v.2.isSome) :: kwShape kw) f x.2.isSome
    simp only [Dict.set]
    by_cases h : k = f
    · rw [if_pos h, if_pos h]
      rfl
    · rw [if_neg h, if_neg h]
      show (k, v.2.isSome) :: kwShape (Dict.set kw f x) = _
      rw [ih]

theorem insert_map {α β : Type} (g : α → β) (le : α → α → Bool) (le' : β → β → Bool) (h : ∀ a b, le a b = le' (g a) (g b)) (a : α) :
    ∀ l : List α, (insertSorted le a l).map g = insertSorted le' (g a) (l.map g)
  | [] => rfl
  | b :: l => by
    simp only [insertSorted, List.map_cons, ← h]
    split
    · rfl
    · rw [List.map_cons, insert_map g le le' h a l]

theorem isort_map {α β : Type} (g : α → β) (le : α → α → Bool) (le' : β → β → Bool) (h : ∀ a b, le a b = le' (g a) (g b)) :
    ∀ l : List α, (isort le l).map g = isort le' (l.map g)
  | [] => rfl
  | a :: l => by
    simp only [isort, List.map_cons]
    rw [insert_map g le le' h, isort_map g le le' h l]

/-- The field and mask of an entry of a rule. -/
def entryShape (enc : Enc) (e : Key × Val) : Option (Nat × Bool) :=
  (keyField e.1).bind (fun f => (enc f e.2).map (fun x => (f, x.2.isSome)))

def shapeStep (kw : Dict Nat Bool) (o : Option (Nat × Bool)) : Option (Dict Nat Bool) := o.map (fun x => kw.set x.1 x.2)

theorem step_shape (enc : Enc) (kw : Dict Nat (Nat × Option Nat)) (e : Key × Val) :
    (matchStep enc kw e).map kwShape = shapeStep (kwShape kw) (entryShape enc e) := by
  unfold matchStep shapeStep entryShape
  cases keyField e.1 with
  | none => rfl
  | some f =>
    simp only [Option.bind_some]
    cases enc f e.2 with
    | none => rfl
    | some x => simp [kwShape_set]

theorem fold_shape (enc : Enc) : ∀ (d : Dict Key Val) (kw : Dict Nat (Nat × Option Nat)),
    (d.foldlM (matchStep enc) kw).map kwShape = (List.map (entryShape enc) d).foldlM shapeStep (kwShape kw)
  | [], kw => rfl
  | e :: d, kw => by
    rw [List.foldlM_cons, List.map_cons, List.foldlM_cons, ← step_shape]
    cases matchStep enc kw e with
    | none => rfl
    | some kw' =>
      simp only [Option.map_some, Option.bind_eq_bind, Option.bind_some]
      exact fold_shape enc d kw'

/-- The shape of the match of a dictionary. -/
def dictShape (enc : Enc) (d : Dict Key Val) : Option (List (Nat × Bool)) :=
  ((List.map (entryShape enc) d).foldlM shapeStep []).map (isort (fun a b => decide (a.1 ≤ b.1)))

theorem match_shape (enc : Enc) (d : Dict Key Val) : (matchFromDict enc d).map shape = dictShape enc d := by
  unfold matchFromDict dictShape
  have := fold_shape enc d []
  rw [show kwShape [] = [] from rfl] at this
  rw [← this]
  cases d.foldlM (matchStep enc) [] with
  | none => rfl
  | some kw =>
    simp only [Option.map_some, Option.some.injEq]
    unfold shape
    rw [List.map_map]
    exact isort_map (fun e : Nat × Nat × Option Nat => (e.1, e.2.2.isSome)) (fun a b => decide (a.1 ≤ b.1))
      (fun a b => decide (a.1 ≤ b.1)) (fun _ _ => rfl) kw

theorem set_entries (enc : Enc) (k : Key) (v w : Val) (h : entryShape enc (k, v) = entryShape enc (k, w)) : ∀ d : Dict Key Val,
    List.map (entryShape enc) (d.set k v) = List.map (entryShape enc) (d.set k w)
  | [] => by simp [Dict.set, h]
  | (a, b) :: d => by
    simp only [Dict.set]
    by_cases e : a = k
    · rw [if_pos e, if_pos e, List.map_cons, List.map_cons, e, h]
    · rw [if_neg e, if_neg e, List.map_cons, List.map_cons, set_entries enc k v w h d]

theorem set_cong (enc : Enc) (k : Key) (v : Val) : ∀ d d' : Dict Key Val, d.map (·.1) = d'.map (·.1) →
    List.map (entryShape enc) d = List.map (entryShape enc) d' →
    List.map (entryShape enc) (d.set k v) = List.map (entryShape enc) (d'.set k v)
  | [], [], _, _ => rfl
  | [], _ :: _, h, _ => by cases h
  | _ :: _, [], h, _ => by cases h
  | (a, b) :: d, (a', b') :: d', h, h2 => by
    simp only [List.map_cons, List.cons.injEq] at h h2
    obtain ⟨rfl, h⟩ := h
    simp only [Dict.set]
    by_cases e : a = k
    · rw [if_pos e, if_pos e, List.map_cons, List.map_cons, h2.2]
    · rw [if_neg e, if_neg e, List.map_cons, List.map_cons, set_cong enc k v d d' h h2.2, h2.1]

theorem port_entry {enc : Enc} (he : EncOk enc) (n m : Nat) : entryShape enc (.new fInPort, .int n) = entryShape enc (.new fInPort, .int m) := by
  unfold entryShape
  simp [keyField, he.inPort]

theorem vid_entry {enc : Enc} (he : EncOk enc) (n m : Nat) : entryShape enc (.new fVlanVid, .int n) = entryShape enc (.new fVlanVid, .int m) := by
  unfold entryShape
  simp [keyField, he.vid]

theorem keys_set_eq (k : Key) (v w : Val) : ∀ d : Dict Key Val, (d.set k v).map (·.1) = (d.set k w).map (·.1)
  | [] => rfl
  | (a, b) :: d => by
    simp only [Dict.set]
    by_cases e : a = k
    · rw [if_pos e, if_pos e]; rfl
    · rw [if_neg e, if_neg e, List.map_cons, List.map_cons, keys_set_eq k v w d]

/-- Contexts that make the same rules, but for tables, ports and VIDs. -/
structure Alike (c c' : Ctx) : Prop where
  port : c.port.isSome = c'.port.isSome
  vlan : c.vlan.isSome = c'.vlan.isSome
  meters : c.meters = c'.meters
  tunnels : c.tunnels = c'.tunnels

theorem with_entries {enc : Enc} (he : EncOk enc) (d : Dict Key Val) {p p' v v' : Option Nat} (hp : p.isSome = p'.isSome)
    (hv : v.isSome = v'.isSome) :
    List.map (entryShape enc) (withVlan v (withPort p d)) = List.map (entryShape enc) (withVlan v' (withPort p' d)) := by
  have hp' : List.map (entryShape enc) (withPort p d) = List.map (entryShape enc) (withPort p' d) ∧
      (withPort p d).map (·.1) = (withPort p' d).map (·.1) := by
    cases p with
    | none =>
      cases p' with
      | none => exact ⟨rfl, rfl⟩
      | some n => cases hp
    | some n =>
      cases p' with
      | none => cases hp
      | some m => exact ⟨set_entries enc _ _ _ (port_entry he _ _) _, keys_set_eq _ _ _ _⟩
  cases v with
  | none =>
    cases v' with
    | none => exact hp'.1
    | some n => cases hv
  | some n =>
    cases v' with
    | none => cases hv
    | some m =>
      show List.map (entryShape enc) ((withPort p d).set _ _) = List.map (entryShape enc) ((withPort p' d).set _ _)
      rw [set_entries enc _ _ _ (vid_entry he _ _)]
      exact set_cong enc _ _ _ _ hp'.2 hp'.1

theorem rule_shape {enc : Enc} (he : EncOk enc) {c c' : Ctx} (h : Alike c c') (r : Rule) :
    (ruleMatch enc c r).map shape = (ruleMatch enc c' r).map shape := by
  unfold ruleMatch
  rw [match_shape, match_shape]
  have key := with_entries he r.fields h.port h.vlan
  unfold dictShape
  rw [key]

/-! ## Instructions -/

/-- An instruction without the id of the table it goes to. -/
def norm : Inst → Inst
  | .goto _ => .goto 0
  | i => i

theorem norm_goto (i : Inst) : (norm i).isGoto = i.isGoto := by cases i <;> rfl

theorem rule_norm {c c' : Ctx} (h : Alike c c') (r : Rule) :
    (ruleInst c r).map (fun x => x.1.map norm) = (ruleInst c' r).map (fun x => x.1.map norm) := by
  unfold ruleInst
  cases r.actions with
  | none => rfl
  | some a =>
    have h1 : Acl.meterInst c a = Acl.meterInst c' a := by unfold Acl.meterInst; rw [h.meters]
    have h2 : Acl.outputOf c a = Acl.outputOf c' a := by unfold Acl.outputOf; rw [h.tunnels]
    have h3 : ∀ o, (Acl.gotoInst c a o).map norm = (Acl.gotoInst c' a o).map norm := by
      intro o
      unfold Acl.gotoInst Acl.allowInst
      split_ifs <;> rfl
    simp only
    rw [h1, h2]
    cases Acl.meterInst c' a with
    | none => rfl
    | some m =>
      cases Acl.outputOf c' a with
      | none => rfl
      | some o => simp [h3 o]

theorem trim_norm (l : List Inst) : (trimInst l).map norm = trimInst (l.map norm) := by
  have hg : (l.map norm).any Inst.isGoto = l.any Inst.isGoto := by
    rw [List.any_map]
    congr 1
    funext i
    exact norm_goto i
  unfold trimInst
  simp only [hg]
  rw [List.map_filterMap, List.filterMap_map]
  congr 1
  funext i
  cases i with
  | apply as =>
    simp only [Function.comp, norm, trimOne]
    split_ifs <;> rfl
  | _ => rfl

theorem mem_norm {as : List Action} {l : List Inst} : Inst.apply as ∈ l ↔ Inst.apply as ∈ l.map norm := by
  rw [List.mem_map]
  constructor
  · exact fun h => ⟨_, h, rfl⟩
  · rintro ⟨i, hi, e⟩
    cases i with
    | apply bs => cases e; exact hi
    | _ => cases e

end Faucet.Features
