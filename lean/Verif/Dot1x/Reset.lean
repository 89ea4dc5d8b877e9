import Verif.Encoding.Props

/-!
# 802.1x: which port a login is for

`FaucetDot1x.reset`, `set_mac_str` and `_get_valve_and_port` (`faucet/faucet_dot1x.py` 87-93, 182-194 and 326-365). The
authenticator knows a port only by an address, which the switch writes into the EAPOL packets it passes on. The address is
made of the position of the switch among those that have 802.1x, and of the number of the port. Any number of switches, and
any history of configurations.
-/

namespace Faucet.Dot1x.Id
open Faucet.Encoding

/-- What happens: FAUCET has read a configuration and calls `reset`; `vs` are the switches that have 802.1x, in the order of
`valves`, with their 802.1x ports (`faucet/valves_manager.py` 324). Or an 802.1x port of a switch comes up or goes down
(also when a reload changes it). -/
inductive Ev where
  | reset (vs : List (Nat × List Nat))
  | up (dp port : Nat)
  | down (dp port : Nat)
deriving DecidableEq

/-- `dp_id_to_valve_index`, `mac_to_port`, and the address that the switches' rules for EAPOL write. -/
structure St where
  index : Nat → Option Nat := fun _ => none
  owner : Str → Option (Nat × Nat) := fun _ => none
  rule : Nat → Nat → Option Str := fun _ _ => none

/-- `set_mac_str`, `faucet/faucet_dot1x.py` 182-194. -/
def setOwner (dp i : Nat) (own : Str → Option (Nat × Nat)) (p : Nat) : Str → Option (Nat × Nat) :=
  fun a => if a = getMacStr i p then some (dp, p) else own a

/-- One turn of the loop of `reset`, `faucet/faucet_dot1x.py` 355-358. -/
def enter (i : Nat) (v : Nat × List Nat) (s : St) : St :=
  { s with index := fun d => if d = v.1 then some i else s.index d, owner := v.2.foldl (setOwner v.1 i) s.owner }

/-- The loop of `reset`, from position `i` on. Entries that are not overwritten stay. -/
def enterAll : Nat → List (Nat × List Nat) → St → St
  | _, [], s => s
  | i, v :: vs, s => enterAll (i + 1) vs (enter i v s)

/-- `reset`, `faucet/faucet_dot1x.py` 326-365. Without switches it returns early, which is the same. -/
def reset (vs : List (Nat × List Nat)) (s : St) : Option St :=
  if vs.length < 255 then some (enterAll 0 vs s) else none

/-- `port_up` with `create_flow_pair`, `faucet/faucet_dot1x.py` 218-249 and 275-294. A switch without position is a
`KeyError`. -/
def up (dp p : Nat) (s : St) : Option St :=
  (s.index dp).map (fun i => { s with rule := fun d q => if d = dp ∧ q = p then some (getMacStr i p) else s.rule d q })

/-- `port_down`, `faucet/faucet_dot1x.py` 296-324: the rule that takes EAPOL of the port is deleted, whatever address it
writes (`faucet/valve_acl.py` 698-703). -/
def down (dp p : Nat) (s : St) : Option St :=
  (s.index dp).map (fun _ => { s with rule := fun d q => if d = dp ∧ q = p then none else s.rule d q })

def step (s : St) : Ev → Option St
  | .reset vs => reset vs s
  | .up d p => up d p s
  | .down d p => down d p s

def run (s : St) (h : List Ev) : Option St := h.foldlM step s

/-- The switch and the port that the handlers apply a login (logoff, failure) to when the client is at a port of a switch:
the address the switch writes is looked up (`_get_valve_and_port`, `faucet/faucet_dot1x.py` 87-93). -/
def St.applied (s : St) (dp p : Nat) : Option (Nat × Nat) := (s.rule dp p).bind s.owner

/-! ## Specification -/

/-- In every configuration read, the switch is the `i`-th of those with 802.1x, and the port is one of its 802.1x ports.
A configuration in which no switch has 802.1x does not count. Switches are told apart by their datapath IDs. -/
def Keeps (dp p i : Nat) (e : Ev) : Prop :=
  ∀ vs, e = .reset vs → vs ≠ [] → (∃ ps, vs[i]? = some (dp, ps) ∧ p ∈ ps) ∧ (vs.map Prod.fst).Nodup

/-! ## Proof -/

theorem mac_inj {i j p q : Nat} : getMacStr i p = getMacStr j q ↔ i = j ∧ p = q :=
  ⟨dot1x_identity_injective, by rintro ⟨rfl, rfl⟩; rfl⟩

theorem owners_other (dp i : Nat) (ps : List Nat) (own : Str → Option (Nat × Nat)) {j p : Nat} (h : j ≠ i ∨ p ∉ ps) :
    ps.foldl (setOwner dp i) own (getMacStr j p) = own (getMacStr j p) := by
  induction ps generalizing own with
  | nil => rfl
  | cons q ps ih =>
    rw [List.foldl_cons, ih _ (h.imp_right (fun h hx => h (List.mem_cons_of_mem _ hx)))]
    unfold setOwner
    rw [if_neg]
    rw [mac_inj]
    rintro ⟨h1, h2⟩
    rcases h with h | h
    · exact h h1
    · exact h (h2 ▸ List.mem_cons_self)

theorem owners_mem (dp i : Nat) (ps : List Nat) (own : Str → Option (Nat × Nat)) {p : Nat} (h : p ∈ ps) :
    ps.foldl (setOwner dp i) own (getMacStr i p) = some (dp, p) := by
  induction ps generalizing own with
  | nil => cases h
  | cons q ps ih =>
    rw [List.foldl_cons]
    by_cases hp : p ∈ ps
    · exact ih _ hp
    · have : p = q := (List.mem_cons.1 h).resolve_right hp
      subst this
      rw [owners_other dp i ps _ (.inr hp)]
      unfold setOwner
      rw [if_pos rfl]

theorem enterAll_rule (i : Nat) (vs : List (Nat × List Nat)) (s : St) : (enterAll i vs s).rule = s.rule := by
  induction vs generalizing i s with
  | nil => rfl
  | cons v vs ih => unfold enterAll; rw [ih]; rfl

theorem enterAll_index_other (i : Nat) (vs : List (Nat × List Nat)) (s : St) {dp : Nat} (h : dp ∉ vs.map Prod.fst) :
    (enterAll i vs s).index dp = s.index dp := by
  induction vs generalizing i s with
  | nil => rfl
  | cons v vs ih =>
    rw [List.map_cons, List.mem_cons, not_or] at h
    unfold enterAll
    rw [ih _ _ h.2]
    exact if_neg h.1

theorem enterAll_owner_other (i : Nat) (vs : List (Nat × List Nat)) (s : St) {j p : Nat} (h : j < i) :
    (enterAll i vs s).owner (getMacStr j p) = s.owner (getMacStr j p) := by
  induction vs generalizing i s with
  | nil => rfl
  | cons v vs ih =>
    unfold enterAll
    rw [ih _ _ (by omega)]
    exact owners_other v.1 i v.2 s.owner (.inl (by omega))

theorem enterAll_at (i k : Nat) (vs : List (Nat × List Nat)) (s : St) {dp p : Nat} {ps : List Nat}
    (h : vs[k]? = some (dp, ps)) (hp : p ∈ ps) (nd : (vs.map Prod.fst).Nodup) :
    (enterAll i vs s).index dp = some (i + k) ∧ (enterAll i vs s).owner (getMacStr (i + k) p) = some (dp, p) := by
  induction vs generalizing i k s with
  | nil => cases h
  | cons v vs ih =>
    rw [List.map_cons, List.nodup_cons] at nd
    unfold enterAll
    cases k with
    | zero =>
      rw [List.getElem?_cons_zero] at h
      injection h with h
      subst h
      rw [enterAll_index_other _ _ _ nd.1, enterAll_owner_other _ _ _ (by omega)]
      refine ⟨?_, ?_⟩
      · exact if_pos rfl
      · exact owners_mem dp i ps s.owner hp
    | succ k =>
      rw [List.getElem?_cons_succ] at h
      have := ih (i + 1) k (enter i v s) h nd.2
      have he : i + 1 + k = i + (k + 1) := by omega
      rw [he] at this
      exact this

/-- The switch's position and the owner of the port's address are right. -/
def Right (dp p i : Nat) (s : St) : Prop := s.index dp = some i ∧ s.owner (getMacStr i p) = some (dp, p)

theorem right_reset {dp p i : Nat} {vs : List (Nat × List Nat)} {s s' : St} (hs : reset vs s = some s') (hne : vs ≠ [])
    (hk : Keeps dp p i (.reset vs)) : Right dp p i s' := by
  unfold reset at hs
  split at hs
  · injection hs with hs
    subst hs
    obtain ⟨⟨ps, h1, h2⟩, nd⟩ := hk vs rfl hne
    have := enterAll_at 0 i vs s h1 h2 nd
    rw [Nat.zero_add] at this
    exact this
  · cases hs

theorem right_step {dp p i : Nat} {s s' : St} {e : Ev} (hs : step s e = some s') (hk : Keeps dp p i e) (h : Right dp p i s) :
    Right dp p i s' := by
  cases e with
  | reset vs =>
    by_cases hne : vs = []
    · subst hne
      have : some s = some s' := hs
      injection this with this
      exact this ▸ h
    · exact right_reset hs hne hk
  | up d q =>
    obtain ⟨j, _, rfl⟩ := Option.map_eq_some_iff.1 (show (s.index d).map _ = some s' from hs)
    exact h
  | down d q =>
    obtain ⟨j, _, rfl⟩ := Option.map_eq_some_iff.1 (show (s.index d).map _ = some s' from hs)
    exact h

theorem run_cons (s : St) (e : Ev) (h : List Ev) : run s (e :: h) = (step s e).bind (fun s' => run s' h) := rfl

theorem run_append (s : St) (h g : List Ev) : run s (h ++ g) = (run s h).bind (fun s' => run s' g) := by
  unfold run
  rw [List.foldlM_append]
  rfl

theorem right_run {dp p i : Nat} {h : List Ev} {s s' : St} (hr : run s h = some s') (hk : ∀ e ∈ h, Keeps dp p i e)
    (h0 : Right dp p i s) : Right dp p i s' := by
  induction h generalizing s with
  | nil => injection hr with hr; exact hr ▸ h0
  | cons e h ih =>
    rw [run_cons] at hr
    obtain ⟨s1, h1, h2⟩ := Option.bind_eq_some_iff.1 hr
    exact ih h2 (fun e he => hk e (List.mem_cons_of_mem _ he)) (right_step h1 (hk e List.mem_cons_self) h0)

theorem rule_step {dp p i : Nat} {s s' : St} {e : Ev} (hs : step s e = some s') (hd : e ≠ .down dp p) (h : Right dp p i s)
    (hrule : s.rule dp p = some (getMacStr i p)) : s'.rule dp p = some (getMacStr i p) := by
  cases e with
  | reset vs =>
    have hs : reset vs s = some s' := hs
    unfold reset at hs
    split at hs
    · injection hs with hs
      subst hs
      rw [enterAll_rule]
      exact hrule
    · cases hs
  | up d q =>
    obtain ⟨j, hj, rfl⟩ := Option.map_eq_some_iff.1 (show (s.index d).map _ = some s' from hs)
    show (if dp = d ∧ p = q then some (getMacStr j q) else s.rule dp p) = _
    split
    · rename_i hq
      obtain ⟨rfl, rfl⟩ := hq
      rw [h.1] at hj
      injection hj with hj
      rw [hj]
    · exact hrule
  | down d q =>
    obtain ⟨j, _, rfl⟩ := Option.map_eq_some_iff.1 (show (s.index d).map _ = some s' from hs)
    show (if dp = d ∧ p = q then none else s.rule dp p) = _
    rw [if_neg]
    · exact hrule
    · rintro ⟨rfl, rfl⟩
      exact hd rfl

theorem rule_run {dp p i : Nat} {h : List Ev} {s s' : St} (hr : run s h = some s') (hk : ∀ e ∈ h, Keeps dp p i e)
    (hd : .down dp p ∉ h) (h0 : Right dp p i s) (hrule : s.rule dp p = some (getMacStr i p)) :
    s'.rule dp p = some (getMacStr i p) := by
  induction h generalizing s with
  | nil => injection hr with hr; exact hr ▸ hrule
  | cons e h ih =>
    rw [run_cons] at hr
    obtain ⟨s1, h1, h2⟩ := Option.bind_eq_some_iff.1 hr
    exact ih h2 (fun e he => hk e (List.mem_cons_of_mem _ he)) (fun hx => hd (List.mem_cons_of_mem _ hx))
      (right_step h1 (hk e List.mem_cons_self) h0)
      (rule_step h1 (fun hx => hd (hx ▸ List.mem_cons_self)) h0 hrule)

/-- **C77.** A login at a port that is up is applied to that port of that switch, if from the configuration on that was in
force when the port came up, the switch has kept its place among the switches with 802.1x and the port is one of its 802.1x
ports; whatever happened before, and whatever other switches and ports do. -/
theorem login_at_own_port_partial {st0 st : St} {dp p i : Nat} {pre mid post : List Ev} {vs : List (Nat × List Nat)}
    (hr : run st0 (pre ++ .reset vs :: mid ++ .up dp p :: post) = some st) (hne : vs ≠ [])
    (hk : ∀ e ∈ .reset vs :: mid ++ post, Keeps dp p i e) (hd : .down dp p ∉ post) :
    st.applied dp p = some (dp, p) := by
  rw [run_append] at hr
  obtain ⟨s1, h1, h2⟩ := Option.bind_eq_some_iff.1 hr
  rw [run_append] at h1
  obtain ⟨s0, _, h1⟩ := Option.bind_eq_some_iff.1 h1
  rw [run_cons] at h1 h2
  obtain ⟨sa, ha, hb⟩ := Option.bind_eq_some_iff.1 h1
  obtain ⟨sc, hc, he⟩ := Option.bind_eq_some_iff.1 h2
  have r1 : Right dp p i s1 := right_run hb
    (fun e hx => hk e (List.mem_append_left _ (List.mem_cons_of_mem _ hx)))
    (right_reset ha hne (hk _ (List.mem_append_left _ List.mem_cons_self)))
  have r2 : Right dp p i sc := right_step hc (fun vs hv => by cases hv) r1
  have rl : sc.rule dp p = some (getMacStr i p) := by
    obtain ⟨j, hj, rfl⟩ := Option.map_eq_some_iff.1 (show (s1.index dp).map _ = some sc from hc)
    rw [r1.1] at hj
    injection hj with hj
    subst hj
    exact if_pos ⟨rfl, rfl⟩
  have hkp : ∀ e ∈ post, Keeps dp p i e := fun e hx => hk e (List.mem_append_right _ hx)
  have r3 := right_run he hkp r2
  have r4 := rule_run he hkp hd r2 rl
  unfold St.applied
  rw [r4]
  exact r3.2

/-- Switches that are only added at the end: switch 2 keeps its place. -/
example (st : St) (hr : run {} ([] ++ .reset [(1, [5]), (2, [5, 6])] :: [.up 1 5] ++ .up 2 5 ::
    [.up 2 6, .reset [(1, [5, 7]), (2, [5]), (3, [5])], .down 1 5, .up 3 5]) = some st) : st.applied 2 5 = some (2, 5) := by
  refine login_at_own_port_partial (i := 1) hr (by decide) ?_ (by decide)
  intro e he vs hv _
  subst hv
  simp at he
  rcases he with rfl | rfl
  · exact ⟨⟨[5, 6], rfl, by decide⟩, by decide⟩
  · exact ⟨⟨[5], rfl, by decide⟩, by decide⟩

example : (run {} ([] ++ .reset [(1, [5]), (2, [5, 6])] :: [.up 1 5] ++ .up 2 5 ::
    [.up 2 6, .reset [(1, [5, 7]), (2, [5]), (3, [5])], .down 1 5, .up 3 5])).isSome = true := by decide +kernel

/-- **Defect.** A client that logs in at one switch opens a port of another. Switch 2 has 802.1x; a reload turns it on for
switch 1 too, which comes first. Nothing has changed at switch 2, so its rules go on writing the old address, which now
stands for the port with the same number of switch 1. The same happens when a switch ahead of switch 2 gives up 802.1x and
a third one is given it later. -/
theorem login_at_other_switch_defect :
    (run {} [.reset [(2, [5])], .up 2 5]).bind (fun s => s.applied 2 5) = some (2, 5) ∧
    (run {} [.reset [(2, [5])], .up 2 5, .reset [(1, [5]), (2, [5])]]).bind (fun s => s.applied 2 5) = some (1, 5) ∧
    (run {} [.reset [(1, [5]), (2, [5])], .up 2 5, .reset [(2, [5])], .reset [(2, [5]), (3, [5])]]).bind
      (fun s => s.applied 2 5) = some (3, 5) := by
  decide +kernel

/-- The events of a reload: those of the ports that are deleted and added again, and only then `reset`
(`faucet/valves_manager.py` 302-324). -/
def reload (ports : List Ev) (vs : List (Nat × List Nat)) : List Ev := ports ++ [.reset vs]

/-- **Defect.** A reload that gives 802.1x to the first port of a switch that is configured for it (section `dot1x`) ends the
controller if the port is up: the port is added before `reset` gives the switch its position, which is a `KeyError`. After a
restart the same configuration works. -/
theorem first_port_defect :
    (run {} (.reset [] :: reload [.up 1 5] [(1, [5])])).isNone ∧
    (run {} [.reset [(1, [5])], .up 1 5]).bind (fun s => s.applied 1 5) = some (1, 5) := by
  decide +kernel

end Faucet.Dot1x.Id
