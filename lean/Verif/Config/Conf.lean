import Verif.Base.Dict
import Verif.Base.Sort

/-!
# Configuration objects (C34)

`Conf` in `faucet/conf.py`: 69-77 (`__setattr__`), 172-181 (`merge_dyn`), 241-260 (`finalize`).

Simplifications. Attribute names are strings, values are trees; dictionary keys are numbers, sorted by number instead of by
their text. The attributes of an object are its `__dict__`; `dyn_finalized` is `False` when it is not there (46).
-/

namespace Faucet.Config

open Faucet

/-- Values of attributes. -/
inductive Val where
  | atom (n : Nat)
  | list (l : List Val)
  | tup (l : List Val)
  | set (l : List Val)
  | fset (l : List Val)
  | dict (l : List (Nat × Val))

mutual
/-- `_finalize_val`, `faucet/conf.py` 241-250 (dictionary order left alone). -/
def finalizeVal : Val → Val
  | .list l => .tup (finalizeVals l)
  | .set l => .fset (finalizeVals l)
  | .dict l => .dict (finalizeItems l)
  | .atom n => .atom n
  | .tup l => .tup l
  | .fset l => .fset l
def finalizeVals : List Val → List Val
  | [] => []
  | v :: l => finalizeVal v :: finalizeVals l
def finalizeItems : List (Nat × Val) → List (Nat × Val)
  | [] => []
  | (k, v) :: l => (k, finalizeVal v) :: finalizeItems l
end

/-- A configuration object. `finalized` is `dyn_finalized`. -/
structure Obj where
  attrs : Dict String Val := []
  finalized : Bool := false
  /-- `mutable_attrs` of its class -/
  mutable : List String := []

def isDyn (name : String) : Bool := "dyn".isPrefixOf name

/-- `__setattr__`, 69-77. `none`: `ValueError`. Setting `dyn_finalized` itself is an assignment too. -/
def Obj.setattr (o : Obj) (name : String) (v : Val) : Option Obj :=
  if !o.finalized || isDyn name || o.mutable.contains name then some { o with attrs := o.attrs.set name v } else none

/-- Assignment of `dyn_finalized`, which is always allowed. -/
def Obj.setFinalized (o : Obj) (b : Bool) : Obj := { o with finalized := b }

/-- `merge_dyn`, 179-181: the other object's attributes whose names start with `dyn`. -/
def Obj.mergeDyn (o : Obj) (other : Dict String Val) : Obj :=
  { o with attrs := (other.filter (fun e => isDyn e.1)).foldl (fun d e => d.set e.1 e.2) o.attrs }

/-- `finalize`, 251-260. -/
def Obj.finalize (o : Obj) : Obj :=
  { o with attrs := o.attrs.map (fun e => if isDyn e.1 then e else (e.1, finalizeVal e.2)), finalized := true }

/-- What code can do with an object: assign an attribute (a refused assignment raises and changes nothing), merge dynamic
state, change an entry of a dictionary in place. -/
inductive OOp where
  | assign (name : String) (v : Val)
  | merge (other : Dict String Val)
  | setItem (name : String) (k : Nat) (v : Val)

/-- `o.name[k] = v`: only a dictionary can be changed in place, a tuple or frozenset cannot. -/
def Obj.setItem (o : Obj) (name : String) (k : Nat) (v : Val) : Obj :=
  match o.attrs.get? name with
  | some (.dict l) => { o with attrs := o.attrs.set name (.dict (Dict.set l k v)) }
  | some (.list l) => { o with attrs := o.attrs.set name (.list (l.set k v)) }
  | _ => o

def Obj.step (o : Obj) : OOp → Obj
  | .assign name v => (o.setattr name v).getD o
  | .merge other => o.mergeDyn other
  | .setItem name k v => o.setItem name k v

def Obj.run (o : Obj) (ops : List OOp) : Obj := ops.foldl Obj.step o

/-! ## Properties -/

mutual
/-- Spec: a value made of immutable parts only. -/
def Frozen : Val → Prop
  | .atom _ => True
  | .tup l => Frozens l
  | .fset l => Frozens l
  | .list _ => False
  | .set _ => False
  | .dict _ => False
def Frozens : List Val → Prop
  | [] => True
  | v :: l => Frozen v ∧ Frozens l
end

mutual
/-- Spec: a value made of numbers, lists and sets, without dictionaries. -/
def Plain : Val → Prop
  | .atom _ => True
  | .list l => Plains l
  | .set l => Plains l
  | .dict _ => False
  | .tup _ => False
  | .fset _ => False
def Plains : List Val → Prop
  | [] => True
  | v :: l => Plain v ∧ Plains l
end

mutual
theorem finalize_frozen (v : Val) (h : Plain v) : Frozen (finalizeVal v) := by
  cases v with
  | atom n => simp [finalizeVal, Frozen]
  | list l => simp only [finalizeVal, Frozen]; exact finalize_frozens l (by simpa [Plain] using h)
  | set l => simp only [finalizeVal, Frozen]; exact finalize_frozens l (by simpa [Plain] using h)
  | dict l => simp [Plain] at h
  | tup l => simp [Plain] at h
  | fset l => simp [Plain] at h
theorem finalize_frozens (l : List Val) (h : Plains l) : Frozens (finalizeVals l) := by
  cases l with
  | nil => simp [finalizeVals, Frozens]
  | cons v l =>
    simp only [Plains] at h
    simp only [finalizeVals, Frozens]
    exact ⟨finalize_frozen v h.1, finalize_frozens l h.2⟩
end

theorem foldl_set_other {d : Dict String Val} {l : List (String × Val)} {name : String} (h : ∀ e ∈ l, e.1 ≠ name) :
    Dict.get? (l.foldl (fun d e => d.set e.1 e.2) d) name = d.get? name := by
  induction l generalizing d with
  | nil => rfl
  | cons e l ih =>
    rw [List.foldl_cons, ih (fun x hx => h x (by simp [hx])), Dict.get?_set_ne _ _ (h e (by simp))]

/-- **Assignment cannot change a finalized configuration.** Whatever is assigned or merged after `finalize`, an attribute
that is neither dynamic nor declared mutable keeps its value, and every assignment to it is refused. -/
theorem finalized_assignment_refused (o : Obj) (hf : o.finalized = true) (ops : List OOp)
    (hops : ∀ op ∈ ops, ∀ n k v, op ≠ .setItem n k v) (name : String) (hd : isDyn name = false) (hm : name ∉ o.mutable) :
    (o.run ops).attrs.get? name = o.attrs.get? name ∧ ∀ v, (o.run ops).setattr name v = none := by
  have gen : ∀ (ops : List OOp) (a : Obj), (∀ op ∈ ops, ∀ n k v, op ≠ .setItem n k v) → a.finalized = true →
      a.mutable = o.mutable → (a.run ops).attrs.get? name = a.attrs.get? name ∧ (a.run ops).finalized = true ∧
      (a.run ops).mutable = o.mutable := by
    intro ops
    induction ops with
    | nil => intro a _ h1 h2; exact ⟨rfl, h1, h2⟩
    | cons op ops ih =>
      intro a ho h1 h2
      have hrest := fun x hx => ho x (List.mem_cons_of_mem _ hx)
      have hstep : (a.step op).attrs.get? name = a.attrs.get? name ∧ (a.step op).finalized = true ∧ (a.step op).mutable = o.mutable := by
        cases op with
        | assign n v =>
          simp only [Obj.step, Obj.setattr]
          split
          · rename_i hc
            refine ⟨?_, h1, h2⟩
            show Dict.get? (a.attrs.set n v) name = _
            apply Dict.get?_set_ne
            intro hn
            subst hn
            rw [h1, hd, h2] at hc
            simp at hc
            exact hm hc
          · exact ⟨rfl, h1, h2⟩
        | merge other =>
          refine ⟨?_, h1, h2⟩
          show Dict.get? ((other.filter _).foldl _ a.attrs) name = _
          apply foldl_set_other
          intro x hx hn
          rw [List.mem_filter] at hx
          rw [hn, hd] at hx
          simp at hx
        | setItem n k v => exact absurd rfl (ho _ (by simp) n k v)
      obtain ⟨s1, s2, s3⟩ := hstep
      obtain ⟨r1, r2, r3⟩ := ih (a.step op) hrest s2 s3
      exact ⟨by rw [← s1]; exact r1, r2, r3⟩
  obtain ⟨g1, g2, g3⟩ := gen ops o hops hf rfl
  refine ⟨g1, fun v => ?_⟩
  unfold Obj.setattr
  rw [g2, hd, g3, if_neg (by simp [hm])]

theorem get?_finalize (o : Obj) (name : String) (hd : isDyn name = false) :
    o.finalize.attrs.get? name = (o.attrs.get? name).map finalizeVal := by
  show Dict.get? (o.attrs.map _) name = _
  generalize o.attrs = d
  induction d with
  | nil => rfl
  | cons e d ih =>
    obtain ⟨k, v⟩ := e
    rw [List.map_cons]
    by_cases hk : k = name
    · subst hk
      rw [hd]
      simp [Dict.get?_cons]
    · have : (if isDyn k = true then (k, v) else (k, finalizeVal v)) = (k, if isDyn k = true then v else finalizeVal v) := by split <;> rfl
      rw [this, Dict.get?_cons, if_neg hk, Dict.get?_cons, if_neg hk]
      exact ih

/-- **Finalized values without dictionaries cannot change at all.** Such an attribute of a finalized object becomes tuples and
frozensets throughout, and keeps its value under every sequence of assignments, merges and changes in place. -/
theorem finalized_immutable_partial (o : Obj) (name : String) (v : Val) (hv : o.attrs.get? name = some v) (hp : Plain v)
    (hd : isDyn name = false) (hm : name ∉ o.mutable) (ops : List OOp) :
    ∃ w, Frozen w ∧ o.finalize.attrs.get? name = some w ∧ (o.finalize.run ops).attrs.get? name = some w := by
  have h0 : o.finalize.attrs.get? name = some (finalizeVal v) := by rw [get?_finalize _ _ hd, hv]; rfl
  have hfz := finalize_frozen v hp
  refine ⟨finalizeVal v, hfz, h0, ?_⟩
  have gen : ∀ (ops : List OOp) (a : Obj), a.finalized = true → a.mutable = o.mutable →
      a.attrs.get? name = some (finalizeVal v) → (a.run ops).attrs.get? name = some (finalizeVal v) := by
    intro ops
    induction ops with
    | nil => intro a _ _ h; exact h
    | cons op ops ih =>
      intro a h1 h2 h3
      have hrun : a.run (op :: ops) = (a.step op).run ops := rfl
      rw [hrun]
      by_cases hs : ∃ n k x, op = .setItem n k x
      · obtain ⟨n, k, x, rfl⟩ := hs
        have hstep : (a.step (.setItem n k x)).finalized = true ∧ (a.step (.setItem n k x)).mutable = o.mutable ∧
            (a.step (.setItem n k x)).attrs.get? name = some (finalizeVal v) := by
          simp only [Obj.step, Obj.setItem]
          split
          · rename_i l hl
            refine ⟨h1, h2, ?_⟩
            show Dict.get? (a.attrs.set n _) name = _
            by_cases hn : n = name
            · subst hn; rw [h3] at hl; simp at hl; rw [hl] at hfz; simp [Frozen] at hfz
            · rw [Dict.get?_set_ne _ _ hn]; exact h3
          · rename_i l hl
            refine ⟨h1, h2, ?_⟩
            show Dict.get? (a.attrs.set n _) name = _
            by_cases hn : n = name
            · subst hn; rw [h3] at hl; simp at hl; rw [hl] at hfz; simp [Frozen] at hfz
            · rw [Dict.get?_set_ne _ _ hn]; exact h3
          · exact ⟨h1, h2, h3⟩
        exact ih _ hstep.1 hstep.2.1 hstep.2.2
      · have hone := finalized_assignment_refused a h1 [op] (by
          intro o ho n k x hox
          simp at ho
          exact hs ⟨n, k, x, by rw [← ho, hox]⟩) name hd (by rw [h2]; exact hm)
        have hfin : (a.step op).finalized = true ∧ (a.step op).mutable = o.mutable := by
          cases op with
          | assign n x => simp only [Obj.step, Obj.setattr]; split <;> exact ⟨h1, h2⟩
          | merge other => exact ⟨h1, h2⟩
          | setItem n k x => exact absurd ⟨n, k, x, rfl⟩ hs
        exact ih _ hfin.1 hfin.2 (by rw [← h3]; exact hone.1)
  exact gen ops o.finalize rfl rfl h0

/-- Dynamic attributes can still be assigned. -/
theorem finalized_dyn_assignable (o : Obj) (name : String) (hd : isDyn name = true) (v : Val) :
    ∃ o', o.setattr name v = some o' ∧ o'.attrs.get? name = some v := by
  unfold Obj.setattr
  rw [hd, if_pos (by simp)]
  exact ⟨_, rfl, by show Dict.get? (Dict.set _ _ _) _ = _; rw [Dict.get?_set_self]⟩

example : isDyn "dyn_running" = true ∧ isDyn "native_vlan" = false ∧
    Plain (.list [.atom 1, .set [.atom 2]]) := by
  refine ⟨by decide +kernel, by decide +kernel, by simp [Plain, Plains]⟩

/-- A dictionary in a finalized configuration can still be changed in place. -/
theorem finalized_dict_mutable_defect : ∃ (o : Obj) (ops : List OOp), isDyn "lldp_beacon" = false ∧ "lldp_beacon" ∉ o.mutable ∧
    o.finalize.attrs.get? "lldp_beacon" = some (.dict [(0, .atom 5)]) ∧
    (o.finalize.run ops).attrs.get? "lldp_beacon" = some (.dict [(0, .atom 6)]) :=
  ⟨{ attrs := [("lldp_beacon", .dict [(0, .atom 5)])] }, [.setItem "lldp_beacon" 0 (.atom 6)], by decide +kernel, by simp,
    by simp [Obj.finalize, show isDyn "lldp_beacon" = false by decide +kernel, finalizeVal, finalizeItems, Dict.get?],
    by simp [Obj.finalize, show isDyn "lldp_beacon" = false by decide +kernel, finalizeVal, finalizeItems, Dict.get?, Obj.run, Obj.step,
      Obj.setItem, Dict.set]⟩

/-- The finalized mark is itself a dynamic attribute: assigning it makes everything assignable again. -/
theorem unfinalize_defect (o : Obj) (name : String) (v : Val) : ((o.finalize.setFinalized false).setattr name v).isSome := by
  simp [Obj.setattr, Obj.setFinalized]

end Faucet.Config
