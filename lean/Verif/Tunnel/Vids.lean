import Verif.Base.Dict
import Mathlib.Data.List.Perm.Subperm
import Mathlib.Data.List.Nodup
import Mathlib.Tactic.ByContra

/-!
# The VLAN ids of tunnels

`faucet/dp.py` 943-962, 1063-1185, 1211-1258 and `faucet/acl.py` 326-525: every switch of the configuration resolves all
tunnel ACLs for itself and must come to the same VLAN id for a tunnel as the others.  ACLs are numbered in the order of
their names.
-/

namespace Faucet.Tunnel

/-- A tunnel in a rule: the destination (the pair of switch and port, numbered) and `tunnel_id`, if given as number. -/
structure VTun where
  dst : Nat
  id : Option Nat := none
deriving DecidableEq, Repr

/-- The tunnels in the rules of an ACL, in order. -/
abbrev VAcl := List VTun

/-- The VLANs of a switch: those of the user, and those reserved for tunnels. -/
structure VSt where
  user : List Nat
  reserved : List Nat
deriving DecidableEq, Repr

/-- `first_unused_vlan_id`, `faucet/dp.py` 943-948; `fuel` bounds the loop and is enough (`firstUnused_spec`). -/
def firstFree (used : List Nat) : Nat → Nat → Nat
  | 0, vid => vid
  | fuel + 1, vid => if vid ∈ used then firstFree used fuel (vid + 1) else vid

def firstUnused (used : List Nat) (vid : Nat) : Nat := firstFree used used.length vid

/-- `create_vlan`, `faucet/dp.py` 950-962, with `check_config`, `faucet/vlan.py` 198: the id must be free and legal. -/
def createVlan (st : VSt) (vid : Nat) : Option VSt :=
  if vid ∈ st.user ++ st.reserved then none
  else if 1 ≤ vid ∧ vid ≤ 4094 then some { st with reserved := vid :: st.reserved } else none

/-- `vlan_offset`, `faucet/dp.py` 1081-1087. -/
def vlanOffset (st : VSt) : Nat := st.user.foldl max 0

/-- `tunnel_offset`, `faucet/dp.py` 1088-1094: tunnels of the ACLs up to this one, counted by rule. -/
def tunnelOffset (acls : List VAcl) (i : Nat) : Nat := ((acls.take (i + 1)).map List.length).sum

/-- `get_tunnel_vlan`, `faucet/dp.py` 1063-1127: `map` is `tunnel_dsts_to_vlan`.  The check of lines 1120-1126 compares a
VLAN with a number and never fails, so it is left out. -/
def getVlan (acls : List VAcl) (i : Nat) (st : VSt) (map : Dict Nat Nat) (x : VTun) : Option (VSt × Nat) :=
  match x.id with
  | none =>
    match map.get? x.dst with
    | some v => some (st, v)
    | none =>
      let v := firstUnused (st.user ++ st.reserved) (vlanOffset st + tunnelOffset acls i)
      (createVlan st v).map (fun st' => (st', v))
  | some v =>
    if v ∈ st.user then none
    else if v ∈ st.reserved then some (st, v)
    else (createVlan st v).map (fun st' => (st', v))

/-- What is kept while an ACL is resolved: the VLANs, `tunnel_dsts_to_vlan`, the ids put in the rules, `tunnel_dests`. -/
structure VRun where
  st : VSt
  map : Dict Nat Nat := []
  ids : List Nat := []
  dests : Dict Nat Nat := []
deriving DecidableEq, Repr

/-- One tunnel of a rule: `resolve_tunnel_objects`, `faucet/dp.py` 1129-1185, and `faucet/acl.py` 357-374. -/
def resolveOne (acls : List VAcl) (i : Nat) (r : VRun) (x : VTun) : Option VRun :=
  (getVlan acls i r.st r.map x).map (fun y =>
    { st := y.1, map := r.map.set x.dst y.2, ids := r.ids ++ [y.2], dests := r.dests.set y.2 x.dst })

/-- `resolve_ports` of an ACL, `faucet/acl.py` 491-525. -/
def resolveAcl (acls : List VAcl) (i : Nat) (st : VSt) : Option VRun :=
  (acls.getD i []).foldlM (resolveOne acls i) { st := st }

/-- `resolve_acls`, `faucet/dp.py` 1211-1258: the ACLs in the order in which the switch comes across them (ports first,
then all), each resolved once.  Gives the resolved ACLs. -/
def resolveAll (acls : List VAcl) : List Nat → VSt → Dict Nat VRun → Option (Dict Nat VRun)
  | [], _, done => some done
  | i :: order, st, done =>
    match done.get? i with
    | some _ => resolveAll acls order st done
    | none => (resolveAcl acls i st).bind (fun r => resolveAll acls order r.st (done.set i r))

/-! ## The search for a free id -/

theorem firstFree_spec (used : List Nat) (fuel vid : Nat) :
    vid ≤ firstFree used fuel vid ∧ firstFree used fuel vid ≤ vid + fuel ∧
    (∀ x, vid ≤ x → x < firstFree used fuel vid → x ∈ used) ∧
    (firstFree used fuel vid ∈ used → firstFree used fuel vid = vid + fuel) := by
  induction fuel generalizing vid with
  | zero => exact ⟨Nat.le_refl _, Nat.le_refl _, fun x h1 h2 => by simp only [firstFree] at h2; omega, fun _ => rfl⟩
  | succ fuel ih =>
    unfold firstFree
    by_cases h : vid ∈ used
    · rw [if_pos h]
      obtain ⟨h1, h2, h3, h4⟩ := ih (vid + 1)
      refine ⟨by omega, by omega, ?_, fun hu => by rw [h4 hu]; omega⟩
      intro x hx1 hx2
      by_cases hx : x = vid
      · rw [hx]; exact h
      · exact h3 x (by omega) hx2
    · rw [if_neg h]
      exact ⟨Nat.le_refl _, by omega, fun x h1 h2 => by omega, fun hu => absurd hu h⟩

/-- The search ends with the first id from `vid` on that is not used. -/
theorem firstUnused_spec (used : List Nat) (vid : Nat) :
    vid ≤ firstUnused used vid ∧ firstUnused used vid ∉ used ∧ ∀ x, vid ≤ x → x < firstUnused used vid → x ∈ used := by
  obtain ⟨h1, _, h3, h4⟩ := firstFree_spec used used.length vid
  refine ⟨h1, ?_, h3⟩
  intro hu
  have he : firstUnused used vid = vid + used.length := h4 hu
  have hsub : (List.range (used.length + 1)).map (vid + ·) ⊆ used := by
    intro x hx
    obtain ⟨k, hk, rfl⟩ := List.mem_map.1 hx
    rw [List.mem_range] at hk
    by_cases hkl : k = used.length
    · rw [hkl, ← he]; exact hu
    · exact h3 _ (by omega) (by unfold firstUnused at he; omega)
  have hnd : ((List.range (used.length + 1)).map (vid + ·)).Nodup :=
    (List.nodup_range).map (fun a b hab => by simpa using hab)
  have := (List.subperm_of_subset hnd hsub).length_le
  simp only [List.length_map, List.length_range] at this
  omega

/-! ## Switches agree -/

/-- Every ACL has tunnels to one destination only, with ids left to the program. -/
def OneDest (acls : List VAcl) : Prop := ∀ a ∈ acls, ∃ d, ∀ x ∈ a, x = ⟨d, none⟩

/-- The id that every switch gives to the tunnel of ACL `i`. -/
def agreed (acls : List VAcl) (user : List Nat) (i : Nat) : Nat := user.foldl max 0 + tunnelOffset acls i

theorem le_foldl_max (l : List Nat) (a : Nat) : a ≤ l.foldl max a ∧ ∀ x ∈ l, x ≤ l.foldl max a := by
  induction l generalizing a with
  | nil => exact ⟨Nat.le_refl _, by simp⟩
  | cons b l ih =>
    obtain ⟨h1, h2⟩ := ih (max a b)
    refine ⟨by simp only [List.foldl_cons]; omega, ?_⟩
    intro x hx
    simp only [List.foldl_cons]
    rcases List.mem_cons.1 hx with rfl | hx
    · omega
    · exact h2 x hx

theorem offset_mono (acls : List VAcl) {i j : Nat} (h : i ≤ j) : tunnelOffset acls i ≤ tunnelOffset acls j := by
  unfold tunnelOffset
  obtain ⟨k, rfl⟩ : ∃ k, j = i + k := ⟨j - i, by omega⟩
  rw [show i + k + 1 = (i + 1) + k by omega]
  generalize i + 1 = a
  rw [List.take_add, List.map_append, List.sum_append]
  omega

theorem offset_lt (acls : List VAcl) {i j : Nat} (h : i < j) (hj : acls.getD j [] ≠ []) :
    tunnelOffset acls i < tunnelOffset acls j := by
  obtain ⟨k, rfl⟩ : ∃ k, j = k + 1 := ⟨j - 1, by omega⟩
  have h1 := offset_mono acls (show i ≤ k by omega)
  have h2 : tunnelOffset acls (k + 1) = tunnelOffset acls k + (acls.getD (k + 1) []).length := by
    unfold tunnelOffset
    rw [List.take_add_one (i := k + 1)]
    rw [List.getD_eq_getElem?_getD]
    cases acls[k + 1]? <;> simp
  have h3 : 0 < (acls.getD (k + 1) []).length := List.length_pos_iff.2 hj
  omega

theorem offset_pos (acls : List VAcl) {i : Nat} (hi : acls.getD i [] ≠ []) : 0 < tunnelOffset acls i := by
  cases i with
  | zero =>
    have : 0 < (acls.getD 0 []).length := List.length_pos_iff.2 hi
    cases acls with
    | nil => simp at hi
    | cons a l => simpa [tunnelOffset] using this
  | succ i => exact Nat.lt_of_le_of_lt (Nat.zero_le _) (offset_lt acls (Nat.lt_succ_self i) hi)

theorem offset_inj (acls : List VAcl) {i j : Nat} (hi : acls.getD i [] ≠ []) (hj : acls.getD j [] ≠ [])
    (h : tunnelOffset acls i = tunnelOffset acls j) : i = j := by
  rcases Nat.lt_trichotomy i j with hl | hl | hl
  · have := offset_lt acls hl hj; omega
  · exact hl
  · have := offset_lt acls hl hi; omega

theorem getD_mem {acls : List VAcl} {i : Nat} (h : acls.getD i [] ≠ []) : acls.getD i [] ∈ acls := by
  rw [List.getD_eq_getElem?_getD] at h ⊢
  cases hx : acls[i]? with
  | none => rw [hx] at h; simp at h
  | some a => exact List.mem_of_getElem? hx

/-- The ids reserved so far are those of ACLs already resolved. -/
def Reserved (acls : List VAcl) (user : List Nat) (st : VSt) (done : Dict Nat VRun) : Prop :=
  st.user = user ∧ ∀ v ∈ st.reserved, ∃ j, (done.get? j).isSome ∧ acls.getD j [] ≠ [] ∧ v = agreed acls user j

theorem resolve_rest {acls : List VAcl} {i d v : Nat} : ∀ (l : List VTun) (r r' : VRun), (∀ x ∈ l, x = ⟨d, none⟩) →
    r.map.get? d = some v → (∀ x ∈ r.ids, x = v) → l.foldlM (resolveOne acls i) r = some r' →
    r'.st = r.st ∧ ∀ x ∈ r'.ids, x = v := by
  intro l
  induction l with
  | nil =>
    intro r r' _ _ hids h
    simp only [List.foldlM_nil] at h
    injection h with h
    subst h
    exact ⟨rfl, hids⟩
  | cons x l ih =>
    intro r r' hl hm hids h
    rw [List.foldlM_cons] at h
    obtain ⟨r1, h1, h2⟩ := Option.bind_eq_some_iff.1 h
    have hx := hl x (by simp)
    subst hx
    simp only [resolveOne, getVlan, hm, Option.map_some, Option.some.injEq] at h1
    subst h1
    have := ih _ _ (fun y hy => hl y (List.mem_cons_of_mem _ hy)) (by simp) (by
      intro y hy
      simp only [List.mem_append, List.mem_singleton] at hy
      rcases hy with hy | hy
      · exact hids y hy
      · exact hy) h2
    exact this

theorem resolveAcl_agreed {acls : List VAcl} (h1 : OneDest acls) {user : List Nat} {st : VSt} {done : Dict Nat VRun}
    (hr : Reserved acls user st done) {i : Nat} (hi : done.get? i = none) {r : VRun} (h : resolveAcl acls i st = some r) :
    (∀ x ∈ r.ids, x = agreed acls user i) ∧ Reserved acls user r.st (done.set i r) := by
  unfold resolveAcl at h
  have hkeep : ∀ j, (done.get? j).isSome → ((done.set i r).get? j).isSome := by
    intro j hj
    by_cases hij : i = j
    · subst hij; simp
    · rw [Dict.get?_set_ne _ _ hij]; exact hj
  by_cases hne : acls.getD i [] = []
  · rw [hne] at h
    simp only [List.foldlM_nil] at h
    injection h with h
    rw [← h]
    refine ⟨by simp, hr.1, ?_⟩
    intro v hv
    obtain ⟨j, hj1, hj2, hj3⟩ := hr.2 v hv
    exact ⟨j, by rw [h]; exact hkeep j hj1, hj2, hj3⟩
  · obtain ⟨d, hd⟩ := h1 _ (getD_mem hne)
    cases hl : acls.getD i [] with
    | nil => exact absurd hl hne
    | cons x l =>
      rw [hl] at h hd
      have hx := hd x (by simp)
      subst hx
      rw [List.foldlM_cons] at h
      obtain ⟨r1, h2, h3⟩ := Option.bind_eq_some_iff.1 h
      have hbase : vlanOffset st + tunnelOffset acls i = agreed acls user i := by unfold vlanOffset agreed; rw [hr.1]
      have hpos : 0 < tunnelOffset acls i := offset_pos acls hne
      have hfree : agreed acls user i ∉ st.user ++ st.reserved := by
        intro hm
        rcases List.mem_append.1 hm with hm | hm
        · rw [hr.1] at hm
          have := (le_foldl_max user 0).2 _ hm
          unfold agreed at this
          omega
        · obtain ⟨j, hj1, hj2, hj3⟩ := hr.2 _ hm
          have : tunnelOffset acls i = tunnelOffset acls j := by unfold agreed at hj3; omega
          have := offset_inj acls hne hj2 this
          subst this
          rw [hi] at hj1
          cases hj1
      have hfirst : firstUnused (st.user ++ st.reserved) (agreed acls user i) = agreed acls user i := by
        obtain ⟨k1, k2, k3⟩ := firstUnused_spec (st.user ++ st.reserved) (agreed acls user i)
        by_contra hne'
        exact hfree (k3 _ (Nat.le_refl _) (by omega))
      simp only [resolveOne, getVlan, Dict.get?_nil, hbase, hfirst] at h2
      obtain ⟨y, hy, rfl⟩ := Option.map_eq_some_iff.1 h2
      obtain ⟨st', hst', rfl⟩ := Option.map_eq_some_iff.1 hy
      have hst : st' = { st with reserved := agreed acls user i :: st.reserved } := by
        unfold createVlan at hst'
        rw [if_neg hfree] at hst'
        split at hst'
        · injection hst' with hst'; exact hst'.symm
        · cases hst'
      obtain ⟨h4, h5⟩ := resolve_rest l _ r (fun x hx => hd x (List.mem_cons_of_mem _ hx)) (d := d)
        (v := agreed acls user i) (by simp) (by simp) h3
      refine ⟨h5, ?_⟩
      rw [h4]
      refine ⟨by rw [hst]; exact hr.1, ?_⟩
      intro v hv
      rw [hst] at hv
      simp only [List.mem_cons] at hv
      rcases hv with rfl | hv
      · exact ⟨i, by simp, hne, rfl⟩
      · obtain ⟨j, hj1, hj2, hj3⟩ := hr.2 v hv
        exact ⟨j, hkeep j hj1, hj2, hj3⟩

theorem resolveAll_agreed {acls : List VAcl} (h1 : OneDest acls) {user : List Nat} : ∀ (order : List Nat) (st : VSt)
    (done out : Dict Nat VRun), Reserved acls user st done →
    (∀ i r, done.get? i = some r → ∀ x ∈ r.ids, x = agreed acls user i) → resolveAll acls order st done = some out →
    ∀ i r, out.get? i = some r → ∀ x ∈ r.ids, x = agreed acls user i := by
  intro order
  induction order with
  | nil =>
    intro st done out _ hd h
    simp only [resolveAll] at h
    injection h with h
    subst h
    exact hd
  | cons j order ih =>
    intro st done out hr hd h
    unfold resolveAll at h
    cases hj : done.get? j with
    | some r =>
      rw [hj] at h
      exact ih st done out hr hd h
    | none =>
      rw [hj] at h
      obtain ⟨r, h2, h3⟩ := Option.bind_eq_some_iff.1 h
      obtain ⟨h4, h5⟩ := resolveAcl_agreed h1 hr hj h2
      refine ih r.st _ out h5 ?_ h3
      intro i r' hi
      by_cases hij : j = i
      · subst hij
        rw [Dict.get?_set_self] at hi
        injection hi with hi
        subst hi
        exact h4
      · rw [Dict.get?_set_ne _ _ hij] at hi
        exact hd i r' hi

/-- **C61.** Two switches that resolve the same ACLs, in whatever order they come across them, give every tunnel the same
VLAN id, if each ACL has one destination and the configuration reserves no VLANs itself. -/
theorem vids_agree {acls : List VAcl} (h1 : OneDest acls) {user order order' : List Nat} {out out' : Dict Nat VRun}
    (h : resolveAll acls order ⟨user, []⟩ [] = some out) (h' : resolveAll acls order' ⟨user, []⟩ [] = some out')
    {i : Nat} {r r' : VRun} (hi : out.get? i = some r) (hi' : out'.get? i = some r') :
    ∀ x ∈ r.ids, ∀ y ∈ r'.ids, x = y := by
  have hres : Reserved acls user ⟨user, []⟩ [] := ⟨rfl, by simp⟩
  intro x hx y hy
  rw [resolveAll_agreed h1 order _ _ _ hres (by simp) h i r hi x hx,
    resolveAll_agreed h1 order' _ _ _ hres (by simp) h' i r' hi' y hy]

/-- Tunnels of different ACLs get different ids, and none is a VLAN of the user. -/
theorem vids_apart {acls : List VAcl} (h1 : OneDest acls) {user order : List Nat} {out : Dict Nat VRun}
    (h : resolveAll acls order ⟨user, []⟩ [] = some out) {i j : Nat} {r r' : VRun} (hi : out.get? i = some r)
    (hj : out.get? j = some r') (hij : i ≠ j) (hni : acls.getD i [] ≠ []) (hnj : acls.getD j [] ≠ []) :
    ∀ x ∈ r.ids, (∀ y ∈ r'.ids, x ≠ y) ∧ x ∉ user := by
  have hres : Reserved acls user ⟨user, []⟩ [] := ⟨rfl, by simp⟩
  intro x hx
  have hxe := resolveAll_agreed h1 order _ _ _ hres (by simp) h i r hi x hx
  refine ⟨?_, ?_⟩
  · intro y hy he
    rw [hxe, resolveAll_agreed h1 order _ _ _ hres (by simp) h j r' hj y hy] at he
    exact hij (offset_inj acls hni hnj (by unfold agreed at he; omega))
  · intro hm
    have hle := (le_foldl_max user 0).2 _ hm
    have hpos := offset_pos acls hni
    rw [hxe] at hle
    unfold agreed at hle
    omega

/-! ## Any configuration: an id is never that of a user's VLAN -/

theorem getVlan_spec {acls : List VAcl} {i : Nat} {st st' : VSt} {map : Dict Nat Nat} {x : VTun} {v : Nat}
    (h : getVlan acls i st map x = some (st', v)) (hm : ∀ d w, map.get? d = some w → w ∈ st.reserved)
    (hd : ∀ w ∈ st.reserved, w ∉ st.user) :
    st'.user = st.user ∧ v ∈ st'.reserved ∧ (∀ w ∈ st.reserved, w ∈ st'.reserved) ∧ ∀ w ∈ st'.reserved, w ∉ st'.user := by
  have hcreate : ∀ {st1 : VSt} {w : Nat}, createVlan st w = some st1 → st1.user = st.user ∧ w ∈ st1.reserved ∧
      (∀ y ∈ st.reserved, y ∈ st1.reserved) ∧ ∀ y ∈ st1.reserved, y ∉ st1.user := by
    intro st1 w hc
    unfold createVlan at hc
    by_cases hu : w ∈ st.user ++ st.reserved
    · rw [if_pos hu] at hc; cases hc
    · rw [if_neg hu] at hc
      split at hc
      · injection hc with hc
        subst hc
        refine ⟨rfl, by simp, fun y hy => by simp [hy], ?_⟩
        intro y hy
        rcases List.mem_cons.1 hy with rfl | hy
        · intro hc2
          exact hu (List.mem_append_left _ hc2)
        · exact hd y hy
      · cases hc
  unfold getVlan at h
  cases hx : x.id with
  | none =>
    rw [hx] at h
    cases hg : map.get? x.dst with
    | some w =>
      simp only [hg, Option.some.injEq, Prod.mk.injEq] at h
      obtain ⟨rfl, rfl⟩ := h
      exact ⟨rfl, hm _ _ hg, fun _ h => h, hd⟩
    | none =>
      simp only [hg] at h
      obtain ⟨st1, hc, he⟩ := Option.map_eq_some_iff.1 h
      injection he with he1 he2
      subst he1
      subst he2
      exact hcreate hc
  | some w =>
    rw [hx] at h
    simp only at h
    by_cases hu : w ∈ st.user
    · rw [if_pos hu] at h; cases h
    · rw [if_neg hu] at h
      by_cases hr : w ∈ st.reserved
      · rw [if_pos hr] at h
        injection h with h
        injection h with h1 h2
        subst h1
        subst h2
        exact ⟨rfl, hr, fun _ h => h, hd⟩
      · rw [if_neg hr] at h
        obtain ⟨st1, hc, he⟩ := Option.map_eq_some_iff.1 h
        injection he with he1 he2
        subst he1
        subst he2
        exact hcreate hc

/-- Whatever the tunnels of an ACL, none of them gets the id of a VLAN the user has hosts on. -/
theorem ids_not_user {acls : List VAcl} {i : Nat} {st : VSt} (hd : ∀ w ∈ st.reserved, w ∉ st.user) {r : VRun}
    (h : resolveAcl acls i st = some r) :
    r.st.user = st.user ∧ (∀ w ∈ r.st.reserved, w ∉ r.st.user) ∧ ∀ v ∈ r.ids, v ∉ st.user := by
  have aux : ∀ (l : List VTun) (r0 r1 : VRun), r0.st.user = st.user → (∀ w ∈ r0.st.reserved, w ∉ r0.st.user) →
      (∀ d w, r0.map.get? d = some w → w ∈ r0.st.reserved) → (∀ v ∈ r0.ids, v ∉ st.user) →
      l.foldlM (resolveOne acls i) r0 = some r1 →
      r1.st.user = st.user ∧ (∀ w ∈ r1.st.reserved, w ∉ r1.st.user) ∧ ∀ v ∈ r1.ids, v ∉ st.user := by
    intro l
    induction l with
    | nil =>
      intro r0 r1 h1 h2 _ h4 h
      simp only [List.foldlM_nil] at h
      injection h with h
      subst h
      exact ⟨h1, h2, h4⟩
    | cons x l ih =>
      intro r0 r1 h1 h2 h3 h4 h
      rw [List.foldlM_cons] at h
      obtain ⟨r2, h5, h6⟩ := Option.bind_eq_some_iff.1 h
      unfold resolveOne at h5
      obtain ⟨y, h7, rfl⟩ := Option.map_eq_some_iff.1 h5
      obtain ⟨k1, k2, k3, k4⟩ := getVlan_spec (st' := y.1) (v := y.2) h7 h3 h2
      refine ih _ _ (k1.trans h1) k4 ?_ ?_ h6
      · intro d w hw
        by_cases hdx : x.dst = d
        · subst hdx
          rw [Dict.get?_set_self] at hw
          injection hw with hw
          subst hw
          exact k2
        · rw [Dict.get?_set_ne _ _ hdx] at hw
          exact k3 _ (h3 d w hw)
      · intro v hv
        simp only [List.mem_append, List.mem_singleton] at hv
        rcases hv with hv | rfl
        · exact h4 v hv
        · rw [← h1, ← k1]
          exact k4 _ k2
  exact aux _ _ r rfl hd (by simp) (by simp) h

end Faucet.Tunnel
