import Verif.Lacp.Model
import Mathlib.Data.List.Infix
import Mathlib.Tactic.ByContra
import Mathlib.Tactic.Tauto

/-!
# Properties of LACP on one switch (C21, C22)
-/

namespace Faucet.Lacp

open Dict

/-! ## Specification -/

/-- Packets received on port `n` are admitted: the switch has the rules for the port and does not drop its packets. -/
def Forwards (s : Sw) (n : Nat) : Prop := n ∈ s.rules ∧ n ∉ s.drop

/-- Time and content of the most recent LACP PDU received on port `n`. -/
def lastHeard (n : Nat) (ops : List Op) : Option (Int × Pdu) :=
  ops.reverse.findSome? (fun o => match o with
    | .pdu m now pkt _ => if m = n then some (now, pkt) else Option.none
    | _ => Option.none)

/-- Histories for which C21 and C22 are claimed, from a state on: a port has one section in a configuration, and a
reload while the switch is not connected adds no port that the switch last reported to be up. (`stale_up_defect` shows
what happens otherwise.) -/
def Calm : Sw → List Op → Prop
  | _, [] => True
  | s, op :: ops =>
    (match op with
      | .reload confs _ _ _ => confs.keys.Nodup ∧ (s.running = false → ∀ n ∈ s.dynUp, n ∈ confs.keys → n ∈ s.ports.keys)
      | .coldReload _ confs _ _ =>
        confs.keys.Nodup ∧ (s.running = false → ∀ n ∈ s.dynUp, n ∈ confs.keys → n ∈ s.ports.keys)
      | _ => True) ∧ Calm (step s op) ops

/-- A history without reloads is one. -/
theorem calm_of_no_reload (ops : List Op) (h : ∀ op ∈ ops, (∀ c o g n, op ≠ .reload c o g n) ∧ ∀ t c o n, op ≠ .coldReload t c o n)
    (s : Sw) : Calm s ops := by
  induction ops generalizing s with
  | nil => trivial
  | cons op ops ih =>
    refine ⟨?_, ih (fun o ho => h o (List.mem_cons_of_mem _ ho)) _⟩
    have := h op (List.mem_cons_self ..)
    cases op with
    | reload c o g n => exact absurd rfl (this.1 c o g n)
    | coldReload t c o n => exact absurd rfl (this.2 t c o n)
    | _ => trivial

/-! ## Batches -/

def Msg.port : Msg → Nat
  | .addDrop p => p
  | .delDrop p => p
  | .addRules p => p
  | .delRules p => p
  | .reply p _ => p

theorem mem_drop_applyBatch (s : Sw) (ms : List Msg) (n : Nat) :
    n ∈ (applyBatch s ms).drop ↔ Msg.addDrop n ∈ ms ∨ (n ∈ s.drop ∧ Msg.delDrop n ∉ ms) := by
  unfold applyBatch
  simp only [List.mem_append, List.mem_filter, List.mem_filterMap, Bool.not_eq_true', List.contains_eq_mem,
    decide_eq_false_iff_not]
  constructor
  · rintro (h | ⟨m, h1, h2⟩)
    · exact .inr h
    · cases m <;> simp at h2; subst h2; exact .inl h1
  · rintro (h | h)
    · exact .inr ⟨_, h, rfl⟩
    · exact .inl h

theorem mem_rules_applyBatch (s : Sw) (ms : List Msg) (n : Nat) :
    n ∈ (applyBatch s ms).rules ↔ Msg.addRules n ∈ ms ∨ (n ∈ s.rules ∧ Msg.delRules n ∉ ms) := by
  unfold applyBatch
  simp only [List.mem_append, List.mem_filter, List.mem_filterMap, Bool.not_eq_true', List.contains_eq_mem,
    decide_eq_false_iff_not]
  constructor
  · rintro (h | ⟨m, h1, h2⟩)
    · exact .inr h
    · cases m <;> simp at h2; subst h2; exact .inl h1
  · rintro (h | h)
    · exact .inr ⟨_, h, rfl⟩
    · exact .inl h

/-! ## One port -/

/-- The messages of a function concern only its port, and its settings stay. -/
def Local (n : Nat) (p : Port) (r : Port × List Msg) : Prop := (∀ m ∈ r.2, m.port = n) ∧ r.1.conf = p.conf

theorem lacpUpdate_snd (p : Port) (n : Nat) (u : Bool) (now : Option Int) (pkt : Option Pdu) (nom cold : Bool) :
    (lacpUpdate p n u now pkt nom cold).2 =
      if changed (lacpBase p u now pkt nom cold) (lacpUpdate p n u now pkt nom cold).1 then
        lacpMsgs (lacpUpdate p n u now pkt nom cold).1 n cold else [] := rfl

theorem lacpUpdate_snd_warm (p : Port) (n : Nat) (u : Bool) (now : Option Int) (pkt : Option Pdu) (nom : Bool) :
    (lacpUpdate p n u now pkt nom false).2 =
      if changed p (lacpUpdate p n u now pkt nom false).1 then
        lacpMsgs (lacpUpdate p n u now pkt nom false).1 n false else [] := rfl

theorem conf_lacpUpdate (p : Port) (n : Nat) (u : Bool) (now : Option Int) (pkt : Option Pdu) (nom cold : Bool) :
    (lacpUpdate p n u now pkt nom cold).1.conf = p.conf := by
  cases cold <;> rfl

theorem running_lacpUpdate (p : Port) (n : Nat) (u : Bool) (now : Option Int) (pkt : Option Pdu) (nom cold : Bool) :
    (lacpUpdate p n u now pkt nom cold).1.running = p.running := by
  cases cold <;> rfl

theorem actor_lacpUpdate (p : Port) (n : Nat) (u : Bool) (now : Option Int) (pkt : Option Pdu) (nom cold : Bool) :
    (lacpUpdate p n u now pkt nom cold).1.actor = p.nextActor u pkt false := by
  cases cold <;> rfl

theorem not_changed {p q : Port} (h : ¬ changed p q = true) : q.actor = p.actor ∧ q.role = p.role := by
  unfold changed at h
  simpa using h

theorem local_lacpUpdate (p : Port) (n : Nat) (u : Bool) (now : Option Int) (pkt : Option Pdu) (nom cold : Bool) :
    Local n p (lacpUpdate p n u now pkt nom cold) := by
  constructor
  · intro m hm
    rw [lacpUpdate_snd] at hm
    generalize (lacpUpdate p n u now pkt nom cold).1 = q at hm
    split at hm
    · unfold lacpMsgs at hm
      split at hm
      · simp at hm; subst hm; rfl
      · unfold delPort addPort at hm
        simp only [List.mem_cons] at hm
        rcases hm with rfl | hm
        · rfl
        · split at hm
          · simp at hm
          · split at hm
            · simp at hm; rcases hm with rfl | rfl <;> rfl
            · simp at hm
    · simp at hm
  · exact conf_lacpUpdate ..

theorem local_portAdd (p : Port) (n : Nat) (nom cold : Bool) : Local n p (portAdd p n nom cold) := by
  have ha : ∀ c m, m ∈ addPort c n → m.port = n := by
    intro c m hm; unfold addPort at hm; split at hm <;> simp at hm; subst hm; rfl
  unfold portAdd
  dsimp only
  split
  · exact ⟨by simp, rfl⟩
  · split
    · have hl := local_lacpUpdate { p with phys := true } n false Option.none Option.none nom cold
      refine ⟨?_, hl.2⟩
      intro m hm
      rcases List.mem_append.1 hm with hm | hm
      · exact ha _ _ hm
      · exact hl.1 m hm
    · exact ⟨ha _, rfl⟩

theorem local_portDelete (p : Port) (n : Nat) (nom : Bool) : Local n p (portDelete p n nom) := by
  unfold portDelete
  dsimp only
  split
  · have hl := local_lacpUpdate { p with phys := false } n false Option.none Option.none nom false
    exact ⟨hl.1, hl.2⟩
  · refine ⟨?_, rfl⟩
    intro m hm
    unfold delPort at hm
    split at hm <;> simp at hm; subst hm; rfl

theorem local_lacpHandler (p : Port) (n : Nat) (now : Int) (pkt : Pdu) (nom : Bool) :
    Local n p (lacpHandler p n now pkt nom) := by
  unfold lacpHandler
  split
  · dsimp only
    have hl := local_lacpUpdate (if pduReply p now pkt then { p with lastResp := some now } else p) n pkt.sync (some now)
      (some pkt) nom false
    refine ⟨?_, hl.2.trans (by split <;> rfl)⟩
    intro m hm
    rcases List.mem_append.1 hm with hm | hm
    · split at hm <;> simp at hm; subst hm; rfl
    · exact hl.1 m hm
  · exact ⟨by simp, rfl⟩

theorem local_portExpire (p : Port) (n : Nat) (timeout now : Int) (nom : Bool) :
    Local n p (portExpire p n timeout now nom) := by
  unfold portExpire
  split
  · exact local_lacpUpdate ..
  · exact ⟨by simp, rfl⟩

/-! ## What one update does to the rules of its port -/

/-- The rules and drop rule of a port after the messages of a batch. -/
def rulesAfter (n : Nat) (ms : List Msg) (r : Prop) : Prop := Msg.addRules n ∈ ms ∨ (r ∧ Msg.delRules n ∉ ms)
def dropAfter (n : Nat) (ms : List Msg) (d : Prop) : Prop := Msg.addDrop n ∈ ms ∨ (d ∧ Msg.delDrop n ∉ ms)

/-- What is true of a bundle member, given whether the switch is connected and whether the switch has the
port's rules (`r`) and drop rule (`d`). -/
structure PInv (run : Bool) (p : Port) (r d : Prop) : Prop where
  live : p.actor = .init ∨ p.actor = .up ∨ p.actor = .nosync → p.running = true
  rules : run = true → p.running = true → p.conf.hasVlans = true → r
  drop : run = true → r → (d ↔ ¬ (p.role = .selected ∧ p.actor = .up))
  phys : run = false → p.phys = false

theorem pinv_lacpUpdate (p : Port) (n : Nat) (u : Bool) (now : Option Int) (pkt : Option Pdu) (nom : Bool) (r d : Prop)
    (hr : p.running = true → p.conf.hasVlans = true → r)
    (hd : r → (d ↔ ¬ (p.role = .selected ∧ p.actor = .up))) :
    PInv true (lacpUpdate p n u now pkt nom false).1 (rulesAfter n (lacpUpdate p n u now pkt nom false).2 r)
      (dropAfter n (lacpUpdate p n u now pkt nom false).2 d) := by
  have hrun := running_lacpUpdate p n u now pkt nom false
  have hact := actor_lacpUpdate p n u now pkt nom false
  have h2 := lacpUpdate_snd_warm p n u now pkt nom
  have hc := conf_lacpUpdate p n u now pkt nom false
  generalize lacpUpdate p n u now pkt nom false = q at *
  obtain ⟨q, ms⟩ := q
  dsimp only at *
  rw [h2]
  refine ⟨?_, ?_, ?_, by simp⟩
  · rw [hact, hrun]
    unfold Port.nextActor
    cases p.running <;> simp
  · intro _ h hv
    rw [hrun] at h
    rw [hc] at hv
    unfold rulesAfter
    by_cases hch : changed p q = true
    · rw [if_pos hch]
      unfold lacpMsgs
      by_cases hs : q.role = .selected ∧ q.actor = .up
      · rw [if_pos hs]; exact .inr ⟨hr h hv, by simp⟩
      · rw [if_neg hs]; left; rw [hc]; simp [addPort, hv]
    · rw [if_neg hch]; exact .inr ⟨hr h hv, by simp⟩
  · intro _ hrule
    unfold dropAfter
    unfold rulesAfter at hrule
    by_cases hch : changed p q = true
    · rw [if_pos hch] at hrule ⊢
      unfold lacpMsgs delPort addPort
      by_cases hs : q.role = .selected ∧ q.actor = .up
      · rw [if_pos hs]; simp [hs]
      · rw [if_neg hs]; simp [hs]
    · rw [if_neg hch] at hrule ⊢
      obtain ⟨e1, e2⟩ := not_changed hch
      rw [e1, e2]
      simp only [List.not_mem_nil, false_or, not_false_eq_true, and_true] at hrule ⊢
      exact hd hrule

/-- Adding a bundle member whose packets are dropped unless it forwards. -/
theorem pinv_portAdd (p : Port) (n : Nat) (nom : Bool) (r d : Prop) (hl : p.conf.lacp ≠ 0)
    (hlive : p.actor = .init ∨ p.actor = .up ∨ p.actor = .nosync → p.conf.enabled = true)
    (hinit : p.actor = .init → r ∨ p.conf.hasVlans = true → d)
    (hshut : p.conf.enabled = false → r → d) :
    PInv true (portAdd p n nom false).1 (rulesAfter n (portAdd p n nom false).2 r)
      (dropAfter n (portAdd p n nom false).2 d) := by
  unfold portAdd
  dsimp only
  by_cases hen : p.conf.enabled = true
  · have hrun : ({ p with phys := true } : Port).running = true := by simp [Port.running, hen]
    rw [if_neg (by simp [hrun]), if_pos hl]
    dsimp only
    generalize hq : lacpUpdate { p with phys := true } n false Option.none Option.none nom false = q
    have hact : q.1.actor = .init := by
      rw [← hq, actor_lacpUpdate]
      unfold Port.nextActor; rw [hrun]; simp
    have h2 : q.2 = if changed { p with phys := true } q.1 then lacpMsgs q.1 n false else [] := by
      rw [← hq]; exact lacpUpdate_snd_warm ..
    have hqrun : q.1.running = true := by rw [← hq, running_lacpUpdate]; exact hrun
    have hqc : q.1.conf = p.conf := by rw [← hq, conf_lacpUpdate]
    refine ⟨fun _ => hqrun, ?_, ?_, by simp⟩
    · intro _ _ hv
      rw [hqc] at hv
      exact .inl (by simp [addPort, hv])
    intro _ hrule
    unfold rulesAfter at hrule
    unfold dropAfter
    rw [h2] at hrule ⊢
    by_cases hch : changed { p with phys := true } q.1 = true
    · rw [if_pos hch] at hrule ⊢
      unfold lacpMsgs
      rw [if_neg (by rw [hact]; simp)]
      rw [hact]; simp
    · rw [if_neg hch] at hrule ⊢
      have hch := not_changed hch
      dsimp only at hch
      have hd : d := by
        apply hinit (hch.1.symm.trans hact)
        rcases hrule with h | h
        · unfold addPort at h
          by_cases hv : p.conf.hasVlans = true
          · exact .inr hv
          · rw [if_neg hv] at h; simp at h
        · exact .inl h.1
      rw [hact]
      have : Msg.delDrop n ∉ addPort p.conf n := by unfold addPort; split <;> simp
      simp [hd, this]
  · have hnr : ({ p with phys := true } : Port).running = false := by simp [Port.running, hen]
    have hna : ¬ (p.actor = .init ∨ p.actor = .up ∨ p.actor = .nosync) := fun h => hen (hlive h)
    rw [if_pos (by simp [hnr])]
    refine ⟨?_, ?_, ?_, by simp⟩
    · intro ha; exact absurd ha hna
    · intro _ ha; rw [hnr] at ha; cases ha
    · intro _ hr
      unfold rulesAfter at hr
      unfold dropAfter
      simp only [List.not_mem_nil, false_or, not_false_eq_true, and_true] at hr ⊢
      have hd := hshut (by simpa using hen) hr
      have : p.actor ≠ .up := fun h => hna (.inr (.inl h))
      simp [hd, this]

theorem pinv_portAdd_cold (p : Port) (n : Nat) (nom : Bool) (hl : p.conf.lacp ≠ 0)
    (h : PInv false p False False) :
    PInv true (portAdd p n nom true).1 (rulesAfter n (portAdd p n nom true).2 False)
      (dropAfter n (portAdd p n nom true).2 False) := by
  have hphys := h.phys rfl
  unfold portAdd
  dsimp only
  by_cases hen : p.conf.enabled = true
  · have hrun : ({ p with phys := true } : Port).running = true := by simp [Port.running, hen]
    rw [if_neg (by simp [hrun]), if_pos hl]
    dsimp only
    generalize hq : lacpUpdate { p with phys := true } n false Option.none Option.none nom true = q
    have hact : q.1.actor = .init := by
      rw [← hq, actor_lacpUpdate]
      unfold Port.nextActor; rw [hrun]; simp
    have h2 : q.2 = lacpMsgs q.1 n true := by
      rw [← hq, lacpUpdate_snd, if_pos]
      unfold changed
      rw [hq, hact]
      rfl
    have hqrun : q.1.running = true := by rw [← hq, running_lacpUpdate]; exact hrun
    have hqc : q.1.conf = p.conf := by rw [← hq, conf_lacpUpdate]
    refine ⟨fun _ => hqrun, ?_, ?_, by simp⟩
    · intro _ _ hv
      rw [hqc] at hv
      exact .inl (by simp [addPort, hv])
    intro _ _
    unfold dropAfter
    rw [h2]
    unfold lacpMsgs
    rw [if_neg (by rw [hact]; simp), hact]; simp
  · have hnr : ({ p with phys := true } : Port).running = false := by simp [Port.running, hen]
    have hnr' : p.running = false := by simp [Port.running, hen]
    rw [if_pos (by simp [hnr])]
    refine ⟨?_, ?_, ?_, by simp⟩
    · intro ha; have := h.live ha; rw [hnr'] at this; cases this
    · intro _ ha; rw [hnr] at ha; cases ha
    · intro _ hr; unfold rulesAfter at hr; simp at hr

/-! ## The whole switch -/

theorem get?_map_ports (ports : Dict Nat Port) (f : Nat → Port → Port) (n : Nat) :
    Dict.get? (ports.map (fun e => (e.1, f e.1 e.2))) n = (Dict.get? ports n).map (f n) := by
  induction ports with
  | nil => rfl
  | cons e l ih =>
    obtain ⟨k, v⟩ := e
    by_cases h : k = n
    · subst h; simp [Dict.get?]
    · simp only [List.map_cons, Dict.get?, if_neg h]; exact ih

/-- A function on all ports acts on each port as if alone. -/
theorem onPorts_at (s : Sw) (f : Nat → Port → Port × List Msg) (hf : ∀ n p, Local n p (f n p))
    (hnd : s.ports.keys.Nodup) (n : Nat) (p : Port) (hp : s.ports.get? n = some p) :
    (onPorts s f).ports.get? n = some (f n p).1 ∧
      (n ∈ (onPorts s f).rules ↔ rulesAfter n (f n p).2 (n ∈ s.rules)) ∧
      (n ∈ (onPorts s f).drop ↔ dropAfter n (f n p).2 (n ∈ s.drop)) := by
  have hms : ∀ m : Msg, m.port = n → (m ∈ s.ports.flatMap (fun e => (f e.1 e.2).2) ↔ m ∈ (f n p).2) := by
    intro m hm
    rw [List.mem_flatMap]
    constructor
    · rintro ⟨⟨k, q⟩, hk, hmem⟩
      have hkn : k = n := by rw [← (hf k q).1 m hmem]; exact hm
      subst hkn
      have := get?_of_mem hnd hk
      rw [hp] at this
      have := Option.some.inj this
      subst this
      exact hmem
    · intro h; exact ⟨(n, p), mem_of_get? hp, h⟩
  refine ⟨?_, ?_, ?_⟩
  · show Dict.get? (s.ports.map (fun e => (e.1, (f e.1 e.2).1))) n = _
    rw [get?_map_ports s.ports (fun n p => (f n p).1) n, hp]; rfl
  · unfold onPorts
    rw [mem_rules_applyBatch, hms _ rfl, hms _ rfl]; rfl
  · unfold onPorts
    rw [mem_drop_applyBatch, hms _ rfl, hms _ rfl]; rfl

theorem onPort_self (s : Sw) (f : Port → Port × List Msg) (n : Nat) (p : Port) (hp : s.ports.get? n = some p) :
    (onPort s n f).ports.get? n = some (f p).1 ∧
      (n ∈ (onPort s n f).rules ↔ rulesAfter n (f p).2 (n ∈ s.rules)) ∧
      (n ∈ (onPort s n f).drop ↔ dropAfter n (f p).2 (n ∈ s.drop)) := by
  unfold onPort
  rw [hp]
  dsimp only
  refine ⟨?_, mem_rules_applyBatch .., mem_drop_applyBatch ..⟩
  show Dict.get? (s.ports.set n (f p).1) n = _
  exact get?_set_self ..

theorem onPort_other (s : Sw) (f : Port → Port × List Msg) (m n : Nat) (hf : ∀ p, Local m p (f p)) (h : n ≠ m) :
    (onPort s m f).ports.get? n = s.ports.get? n ∧ (n ∈ (onPort s m f).rules ↔ n ∈ s.rules) ∧
      (n ∈ (onPort s m f).drop ↔ n ∈ s.drop) := by
  unfold onPort
  cases hp : s.ports.get? m with
  | none => exact ⟨rfl, Iff.rfl, Iff.rfl⟩
  | some p =>
    dsimp only
    have hn : ∀ x : Msg, x.port = n → x ∉ (f p).2 := by
      intro x hx hmem
      have := (hf p).1 x hmem
      exact h (hx.symm.trans this)
    refine ⟨?_, ?_, ?_⟩
    · show Dict.get? (s.ports.set m (f p).1) n = _
      exact get?_set_ne _ _ (Ne.symm h)
    · rw [mem_rules_applyBatch]; simp [hn _ (rfl : (Msg.addRules n).port = n), hn _ (rfl : (Msg.delRules n).port = n)]
    · rw [mem_drop_applyBatch]; simp [hn _ (rfl : (Msg.addDrop n).port = n), hn _ (rfl : (Msg.delDrop n).port = n)]

theorem keys_map_ports (ports : Dict Nat Port) (f : Nat → Port → Port) :
    Dict.keys (ports.map (fun e => (e.1, f e.1 e.2))) = ports.keys := by
  unfold Dict.keys; rw [List.map_map]; rfl

theorem keys_onPort (s : Sw) (n : Nat) (f : Port → Port × List Msg) : (onPort s n f).ports.keys = s.ports.keys := by
  unfold onPort
  cases hp : s.ports.get? n with
  | none => rfl
  | some p =>
    show Dict.keys (s.ports.set n (f p).1) = _
    rw [keys_set, if_pos (get?_isSome_iff_mem_keys.1 (by rw [hp]; rfl))]

theorem keys_onPorts (s : Sw) (f : Nat → Port → Port × List Msg) : (onPorts s f).ports.keys = s.ports.keys :=
  keys_map_ports s.ports (fun n p => (f n p).1)

theorem get?_onPorts (s : Sw) (f : Nat → Port → Port × List Msg) (n : Nat) :
    (onPorts s f).ports.get? n = (s.ports.get? n).map (fun p => (f n p).1) :=
  get?_map_ports s.ports (fun n p => (f n p).1) n

theorem local_connPort (ups nom : List Nat) (n : Nat) (p : Port) : Local n p (connPort ups nom n p) := by
  unfold connPort
  split
  · exact local_portAdd ..
  · exact ⟨by simp, rfl⟩

theorem local_statusUp (nom : List Nat) (n : Nat) (p : Port) : Local n p (statusUp nom n p) := by
  unfold statusUp
  split
  · exact ⟨by simp, rfl⟩
  · exact local_portAdd ..

theorem local_statusDown (nom : List Nat) (n : Nat) (p : Port) : Local n p (statusDown nom n p) := by
  unfold statusDown
  split
  · exact local_portDelete ..
  · exact ⟨by simp, rfl⟩

theorem local_expPort (timeout now : Int) (nom : List Nat) (n : Nat) (p : Port) :
    Local n p (expPort timeout now nom n p) := local_portExpire ..

/-- What holds at every point: of every bundle member; that packets are dropped on ports without configuration or VLANs
that still have rules; that no port is up or known to be up while the switch is not connected; that ports up are known to
be up. -/
structure Inv (s : Sw) : Prop where
  nodup : s.ports.keys.Nodup
  member : ∀ n p, s.ports.get? n = some p → p.conf.lacp ≠ 0 → PInv s.running p (n ∈ s.rules) (n ∈ s.drop)
  other : ∀ n, s.running = true → (∀ p, s.ports.get? n = some p → p.conf.lacp = 0 ∧ p.conf.hasVlans = false) →
    n ∈ s.rules → n ∈ s.drop
  down : s.running = false → ∀ n p, s.ports.get? n = some p → p.phys = false
  ups : ∀ n p, s.ports.get? n = some p → p.conf.lacp ≠ 0 → s.running = true → p.phys = true → n ∈ s.dynUp
  idle : s.running = false → ∀ n ∈ s.dynUp, n ∉ s.ports.keys

theorem running_onPort (s : Sw) (n : Nat) (f : Port → Port × List Msg) : (onPort s n f).running = s.running := by
  unfold onPort; split <;> rfl

theorem dynUp_onPort (s : Sw) (n : Nat) (f : Port → Port × List Msg) : (onPort s n f).dynUp = s.dynUp := by
  unfold onPort; split <;> rfl

theorem inv_onPort (s : Sw) (m : Nat) (f : Port → Port × List Msg) (up : List Nat) (hf : ∀ p, Local m p (f p)) (h : Inv s)
    (hrun : s.running = true)
    (hstep : ∀ p r d, s.ports.get? m = some p → p.conf.lacp ≠ 0 → PInv true p r d →
      PInv true (f p).1 (rulesAfter m (f p).2 r) (dropAfter m (f p).2 d))
    (hmsg : ∀ p, p.conf.lacp = 0 → p.conf.hasVlans = false → (f p).2 = [])
    (hup : ∀ n ∈ s.dynUp, n ≠ m → n ∈ up)
    (hself : ∀ p, s.ports.get? m = some p → p.conf.lacp ≠ 0 → (f p).1.phys = true → m ∈ up) :
    Inv (setUp (onPort s m f) up) := by
  have hr : (setUp (onPort s m f) up).running = true := (running_onPort s m f).trans hrun
  refine ⟨(keys_onPort s m f).symm ▸ h.nodup, ?_, ?_, ?_, ?_, fun h0 => by rw [hr] at h0; cases h0⟩
  · intro n q hq hl
    rw [hr]
    change (onPort s m f).ports.get? n = some q at hq
    change PInv true q (n ∈ (onPort s m f).rules) (n ∈ (onPort s m f).drop)
    by_cases hn : n = m
    · subst hn
      cases hp : s.ports.get? n with
      | none =>
        have : onPort s n f = s := by unfold onPort; rw [hp]
        rw [this] at hq
        rw [hp] at hq; cases hq
      | some p =>
        obtain ⟨h1, h2, h3⟩ := onPort_self s f n p hp
        rw [h1] at hq
        have hq := Option.some.inj hq
        subst hq
        rw [(hf p).2] at hl
        rw [h2, h3]
        exact hstep p _ _ hp hl (hrun ▸ h.member n p hp hl)
    · obtain ⟨h1, h2, h3⟩ := onPort_other s f m n hf hn
      rw [h1] at hq
      rw [h2, h3]
      exact hrun ▸ h.member n q hq hl
  · intro n _ hc hn'
    change n ∈ (onPort s m f).rules at hn'
    change n ∈ (onPort s m f).drop
    change ∀ p, (onPort s m f).ports.get? n = some p → _ at hc
    by_cases hn : n = m
    · subst hn
      cases hp : s.ports.get? n with
      | none =>
        have : onPort s n f = s := by unfold onPort; rw [hp]
        rw [this] at hn' ⊢
        exact h.other n hrun (by rw [hp]; intro p hp; cases hp) hn'
      | some p =>
        obtain ⟨h1, h2, h3⟩ := onPort_self s f n p hp
        have hc' := hc _ h1
        rw [(hf p).2] at hc'
        have hms := hmsg p hc'.1 hc'.2
        rw [h2] at hn'
        rw [h3]
        rw [hms] at hn' ⊢
        unfold rulesAfter at hn'
        unfold dropAfter
        simp only [List.not_mem_nil, false_or, not_false_eq_true, and_true] at hn' ⊢
        exact h.other n hrun (by rw [hp]; intro p' hp'; cases hp'; exact hc') hn'
    · obtain ⟨h1, h2, h3⟩ := onPort_other s f m n hf hn
      rw [h1] at hc
      rw [h2] at hn'
      rw [h3]
      exact h.other n hrun hc hn'
  · intro h0; rw [hr] at h0; cases h0
  · intro n q hq hl _ hph
    change (onPort s m f).ports.get? n = some q at hq
    show n ∈ up
    by_cases hn : n = m
    · subst hn
      cases hp : s.ports.get? n with
      | none =>
        have : onPort s n f = s := by unfold onPort; rw [hp]
        rw [this, hp] at hq; cases hq
      | some p =>
        rw [(onPort_self s f n p hp).1] at hq
        have hq := Option.some.inj hq
        subst hq
        rw [(hf p).2] at hl
        exact hself p hp hl hph
    · rw [(onPort_other s f m n hf hn).1] at hq
      exact hup n (h.ups n q hq hl hrun hph) hn

theorem phys_portDelete (p : Port) (n : Nat) (nom : Bool) : (portDelete p n nom).1.phys = false := by
  unfold portDelete; dsimp only; split <;> rfl

theorem actor_portDelete (p : Port) (n : Nat) (nom : Bool) (hl : p.conf.lacp ≠ 0) :
    (portDelete p n nom).1.actor = .none := by
  unfold portDelete; dsimp only; rw [if_pos hl]
  rw [actor_lacpUpdate]
  unfold Port.nextActor
  have : ({ p with phys := false } : Port).running = false := by simp [Port.running]
  rw [this]
  simp

theorem phys_portExpire (p : Port) (n : Nat) (timeout now : Int) (nom : Bool) :
    (portExpire p n timeout now nom).1.phys = p.phys := by
  unfold portExpire; split <;> rfl

theorem phys_lacpHandler (p : Port) (n : Nat) (now : Int) (pkt : Pdu) (nom : Bool) :
    (lacpHandler p n now pkt nom).1.phys = p.phys := by
  unfold lacpHandler
  split
  · dsimp only; split <;> rfl
  · rfl

theorem setUp_self (s : Sw) (n : Nat) (f : Port → Port × List Msg) : setUp (onPort s n f) s.dynUp = onPort s n f := by
  have := dynUp_onPort s n f
  unfold setUp
  rw [← this]

/-- No port outside the configuration is concerned by a function on all ports. -/
theorem onPorts_absent (s : Sw) (f : Nat → Port → Port × List Msg) (hf : ∀ n p, Local n p (f n p)) (n : Nat)
    (hp : s.ports.get? n = none) :
    (n ∈ (onPorts s f).rules ↔ n ∈ s.rules) ∧ (n ∈ (onPorts s f).drop ↔ n ∈ s.drop) := by
  have hms : ∀ m : Msg, m.port = n → m ∉ s.ports.flatMap (fun e => (f e.1 e.2).2) := by
    intro m hm hmem
    obtain ⟨⟨k, q⟩, hk, hmem⟩ := List.mem_flatMap.1 hmem
    have hkn : k = n := by rw [← (hf k q).1 m hmem]; exact hm
    subst hkn
    have : k ∈ s.ports.keys := List.mem_map.2 ⟨_, hk, rfl⟩
    rw [← get?_isSome_iff_mem_keys, hp] at this
    cases this
  unfold onPorts
  rw [mem_rules_applyBatch, mem_drop_applyBatch]
  simp [hms _ (rfl : (Msg.addRules n).port = n), hms _ (rfl : (Msg.delRules n).port = n),
    hms _ (rfl : (Msg.addDrop n).port = n), hms _ (rfl : (Msg.delDrop n).port = n)]

/-! ### Reloads -/

theorem get?_map_confs {β : Type} (confs : Dict Nat Conf) (f : Nat → Conf → β) (n : Nat) :
    Dict.get? (confs.map (fun e => (e.1, f e.1 e.2))) n = (Dict.get? confs n).map (f n) := by
  induction confs with
  | nil => rfl
  | cons e l ih =>
    obtain ⟨k, v⟩ := e
    by_cases h : k = n
    · subst h; simp [Dict.get?]
    · simp only [List.map_cons, Dict.get?, if_neg h]; exact ih

theorem keys_map_confs {β : Type} (confs : Dict Nat Conf) (f : Nat → Conf → β) :
    Dict.keys (confs.map (fun e => (e.1, f e.1 e.2))) = confs.keys := by
  unfold Dict.keys; rw [List.map_map]; rfl

theorem local_reloadDel (confs : Dict Nat Conf) (own changed nom : List Nat) (n : Nat) (p : Port) :
    Local n p (reloadDel confs own changed nom n p) := by
  unfold reloadDel
  split
  · split
    · exact local_portDelete ..
    · exact ⟨by simp, rfl⟩
  · exact local_portDelete ..

theorem conf_merged (s : Sw) (own : List Nat) (n : Nat) (c : Conf) : (merged s own n c).conf = c := by
  unfold merged
  cases s.ports.get? n with
  | none => rfl
  | some p =>
    dsimp only
    split
    · rename_i h; unfold same at h; simp at h; exact h.2
    · rfl

theorem conf_cloned (s : Sw) (own changed : List Nat) (n : Nat) (c : Conf) : (cloned s own changed n c).conf = c :=
  conf_merged s own n c

theorem reloadAdd_local (s : Sw) (own changed nom : List Nat) (n : Nat) (c : Conf) :
    (∀ m ∈ (reloadAdd s own changed nom n c).2, m.port = n) ∧ (reloadAdd s own changed nom n c).1.conf = c := by
  unfold reloadAdd
  split
  · have := local_portAdd (cloned s own changed n c) n (nom.contains c.lacp) false
    exact ⟨this.1, this.2.trans (conf_cloned ..)⟩
  · exact ⟨by simp, conf_cloned ..⟩

/-- The messages of a reload about port `n`: those of its deletion and of its addition. -/
def delMsgs (s : Sw) (confs : Dict Nat Conf) (own changed nom : List Nat) (n : Nat) : List Msg :=
  ((s.ports.get? n).map (fun p => (reloadDel confs own changed nom n p).2)).getD []

def addMsgs (s : Sw) (confs : Dict Nat Conf) (own changed nom : List Nat) (n : Nat) : List Msg :=
  ((confs.get? n).map (fun c => (reloadAdd s own changed nom n c).2)).getD []

theorem mem_reloadMsgs (s : Sw) (confs : Dict Nat Conf) (own changed nom : List Nat) (hs : s.ports.keys.Nodup)
    (hc : confs.keys.Nodup) (m : Msg) :
    m ∈ reloadMsgs s confs own changed nom ↔
      m ∈ delMsgs s confs own changed nom m.port ∨ m ∈ addMsgs s confs own changed nom m.port := by
  unfold reloadMsgs
  rw [List.mem_append, List.mem_flatMap, List.mem_flatMap]
  unfold delMsgs addMsgs
  constructor
  · rintro (⟨⟨k, q⟩, hk, hm⟩ | ⟨⟨k, q⟩, hk, hm⟩)
    · left
      have := (local_reloadDel confs own changed nom k q).1 m hm
      subst this
      rw [get?_of_mem hs hk]; exact hm
    · right
      have := (reloadAdd_local s own changed nom k q).1 m hm
      subst this
      rw [get?_of_mem hc hk]; exact hm
  · rintro (h | h)
    · left
      cases hp : s.ports.get? m.port with
      | none => rw [hp] at h; simp at h
      | some p => rw [hp] at h; exact ⟨(m.port, p), mem_of_get? hp, h⟩
    · right
      cases hp : confs.get? m.port with
      | none => rw [hp] at h; simp at h
      | some p => rw [hp] at h; exact ⟨(m.port, p), mem_of_get? hp, h⟩

theorem actor_noPdu_up (p : Port) (n : Nat) (u : Bool) (now : Option Int) (nom cold : Bool) :
    (lacpUpdate p n u now Option.none nom cold).1.actor ≠ .up := by
  rw [actor_lacpUpdate]
  unfold Port.nextActor
  simp only [Bool.false_eq_true, if_false, if_true]
  split <;> simp

theorem add_readds (p : Port) (n : Nat) (nom : Bool) :
    (Msg.delRules n ∈ (portAdd p n nom false).2 → Msg.addRules n ∈ (portAdd p n nom false).2) ∧
      (Msg.delDrop n ∉ (portAdd p n nom false).2) := by
  unfold portAdd
  dsimp only
  split
  · simp
  · split
    · have hact := actor_noPdu_up { p with phys := true } n false Option.none nom false
      have hc := conf_lacpUpdate { p with phys := true } n false Option.none Option.none nom false
      have h2 := lacpUpdate_snd_warm { p with phys := true } n false Option.none Option.none nom
      generalize lacpUpdate { p with phys := true } n false Option.none Option.none nom false = q at *
      obtain ⟨q, ms⟩ := q
      dsimp only at *
      rw [h2]
      unfold addPort
      cases hv : p.conf.hasVlans <;> split <;> simp [lacpMsgs, hact, delPort, addPort, hc, hv]
    · unfold addPort; split <;> simp

theorem reloadAdd_readds (s : Sw) (own changed nom : List Nat) (n : Nat) (c : Conf) :
    (Msg.delRules n ∈ (reloadAdd s own changed nom n c).2 → Msg.addRules n ∈ (reloadAdd s own changed nom n c).2) ∧
      (Msg.delDrop n ∉ (reloadAdd s own changed nom n c).2) := by
  unfold reloadAdd
  split
  · exact add_readds ..
  · simp

/-- What is left of a port once it is deleted: its rules only together with the rule that drops its packets, which is
there too if it was a live member. -/
theorem delete_shuts (p : Port) (n : Nat) (nom : Bool) (r d : Prop) (hm : p.conf.lacp ≠ 0 → PInv true p r d)
    (ho : p.conf.lacp = 0 → p.conf.hasVlans = false → r → d) :
    (rulesAfter n (portDelete p n nom).2 r → dropAfter n (portDelete p n nom).2 d) ∧
      (p.conf.lacp ≠ 0 → p.actor = .init ∨ p.actor = .up ∨ p.actor = .nosync → dropAfter n (portDelete p n nom).2 d) := by
  by_cases hl : p.conf.lacp ≠ 0
  · have hinv := hm hl
    have hact := actor_portDelete p n nom hl
    unfold portDelete at hact ⊢
    dsimp only at hact ⊢
    rw [if_pos hl] at hact ⊢
    have h := pinv_lacpUpdate { p with phys := false } n false Option.none Option.none nom r d (by simp [Port.running])
      (hinv.drop rfl)
    constructor
    · intro hr
      refine (h.drop rfl hr).2 ?_
      rw [hact]; simp
    · intro _ ha
      rw [lacpUpdate_snd_warm]
      generalize (lacpUpdate { p with phys := false } n false Option.none Option.none nom false).1 = q at *
      have hch : changed { p with phys := false } q = true := by
        unfold changed
        rw [hact]
        rcases ha with ha | ha | ha <;> simp [ha]
      rw [if_pos hch]
      unfold lacpMsgs dropAfter
      rw [if_neg (by rw [hact]; simp)]
      simp
  · have hl : p.conf.lacp = 0 := by simpa using hl
    refine ⟨?_, fun h => absurd hl h⟩
    unfold portDelete
    dsimp only
    rw [if_neg (by simpa using hl)]
    unfold delPort rulesAfter dropAfter
    cases hv : p.conf.hasVlans
    · simpa using ho hl hv
    · simp

theorem rulesAfter_append (n : Nat) (D A : List Msg) (r : Prop) (h : Msg.delRules n ∈ A → Msg.addRules n ∈ A) :
    rulesAfter n (D ++ A) r ↔ rulesAfter n A (rulesAfter n D r) := by
  unfold rulesAfter
  simp only [List.mem_append]
  tauto

theorem dropAfter_append (n : Nat) (D A : List Msg) (d : Prop) (h : Msg.delDrop n ∉ A) :
    dropAfter n (D ++ A) d ↔ dropAfter n A (dropAfter n D d) := by
  unfold dropAfter
  simp only [List.mem_append]
  tauto

/-- A port of both configurations: its messages, and what is known of it before. -/
theorem addMsgs_some (s : Sw) (confs : Dict Nat Conf) (own changed nom : List Nat) (n : Nat) (c : Conf)
    (hc : confs.get? n = some c) : addMsgs s confs own changed nom n = (reloadAdd s own changed nom n c).2 := by
  unfold addMsgs; rw [hc]; rfl

theorem addMsgs_none (s : Sw) (confs : Dict Nat Conf) (own changed nom : List Nat) (n : Nat)
    (hc : confs.get? n = none) : addMsgs s confs own changed nom n = [] := by
  unfold addMsgs; rw [hc]; rfl

theorem addMsgs_readds (s : Sw) (confs : Dict Nat Conf) (own changed nom : List Nat) (n : Nat) :
    (Msg.delRules n ∈ addMsgs s confs own changed nom n → Msg.addRules n ∈ addMsgs s confs own changed nom n) ∧
      Msg.delDrop n ∉ addMsgs s confs own changed nom n := by
  cases hc : confs.get? n with
  | none => rw [addMsgs_none _ _ _ _ _ _ hc]; simp
  | some c => rw [addMsgs_some _ _ _ _ _ _ _ hc]; exact reloadAdd_readds ..

/-- A warm reload acts on each port as its deletion and then its addition. -/
theorem reload_at (s : Sw) (confs : Dict Nat Conf) (own changed nom : List Nat) (hs : s.ports.keys.Nodup)
    (hc : confs.keys.Nodup) (n : Nat) :
    (n ∈ (applyBatch (reloadPorts s confs own changed nom) (reloadMsgs s confs own changed nom)).rules ↔
      rulesAfter n (addMsgs s confs own changed nom n) (rulesAfter n (delMsgs s confs own changed nom n) (n ∈ s.rules))) ∧
    (n ∈ (applyBatch (reloadPorts s confs own changed nom) (reloadMsgs s confs own changed nom)).drop ↔
      dropAfter n (addMsgs s confs own changed nom n) (dropAfter n (delMsgs s confs own changed nom n) (n ∈ s.drop))) := by
  have hm := mem_reloadMsgs s confs own changed nom hs hc
  obtain ⟨h1, h2⟩ := addMsgs_readds s confs own changed nom n
  rw [← rulesAfter_append n _ _ _ h1, ← dropAfter_append n _ _ _ h2, mem_rules_applyBatch, mem_drop_applyBatch]
  unfold rulesAfter dropAfter
  rw [hm, hm, hm, hm]
  simp only [Msg.port, List.mem_append]
  exact ⟨Iff.rfl, Iff.rfl⟩

/-- After the deletions of a warm reload, a port that is not kept as it is has rules only with the rule that drops its
packets. -/
theorem reload_shut (s : Sw) (confs : Dict Nat Conf) (own changed nom : List Nat) (h : Inv s) (hr : s.running = true)
    (n : Nat) (hch : ∀ p c, s.ports.get? n = some p → confs.get? n = some c → isChanged p own changed n c = true) :
    (rulesAfter n (delMsgs s confs own changed nom n) (n ∈ s.rules) →
      dropAfter n (delMsgs s confs own changed nom n) (n ∈ s.drop)) ∧
    (∀ p, s.ports.get? n = some p → p.conf.lacp ≠ 0 → p.actor = .init ∨ p.actor = .up ∨ p.actor = .nosync →
      dropAfter n (delMsgs s confs own changed nom n) (n ∈ s.drop)) := by
  cases hp : s.ports.get? n with
  | none =>
    have : delMsgs s confs own changed nom n = [] := by unfold delMsgs; rw [hp]; rfl
    rw [this]
    refine ⟨?_, by intro p h'; cases h'⟩
    unfold rulesAfter dropAfter
    simpa using h.other n hr (by rw [hp]; intro p hp; cases hp)
  | some p =>
    have : delMsgs s confs own changed nom n = (portDelete p n (nom.contains p.conf.lacp)).2 := by
      unfold delMsgs; rw [hp]
      show (reloadDel confs own changed nom n p).2 = _
      unfold reloadDel
      cases hc : confs.get? n with
      | none => rfl
      | some c => dsimp only; rw [if_pos (hch p c hp hc)]
    rw [this]
    have hd := delete_shuts p n (nom.contains p.conf.lacp) (n ∈ s.rules) (n ∈ s.drop)
      (fun hl => hr ▸ h.member n p hp hl)
      (fun hl hv => h.other n hr (by rw [hp]; intro p' hp'; cases hp'; exact ⟨hl, hv⟩))
    refine ⟨hd.1, ?_⟩
    intro p' hp'
    cases hp'
    exact hd.2

/-- The dynamic state of the new object of a port that is not kept as it is: that of a new port, or of the old one. -/
theorem merged_cases (s : Sw) (own : List Nat) (n : Nat) (c : Conf) :
    merged s own n c = { conf := c } ∨ ∃ p, s.ports.get? n = some p ∧ p.conf = c ∧ merged s own n c = p := by
  unfold merged
  cases s.ports.get? n with
  | none => exact .inl rfl
  | some p =>
    dsimp only
    split
    · rename_i hs; unfold same at hs; simp at hs; exact .inr ⟨p, rfl, hs.2, rfl⟩
    · exact .inl rfl

theorem phys_cloned (s : Sw) (own changed : List Nat) (n : Nat) (c : Conf)
    (hch : ∀ p, s.ports.get? n = some p → isChanged p own changed n c = true) : (cloned s own changed n c).phys = false := by
  unfold cloned
  cases hp : s.ports.get? n with
  | none => rfl
  | some p => simp [hch p hp]

/-- A port that is neither changed nor new is kept as it is. -/
theorem cloned_kept (s : Sw) (own changed : List Nat) (n : Nat) (c : Conf) (p : Port) (hp : s.ports.get? n = some p)
    (hch : isChanged p own changed n c = false) : cloned s own changed n c = p ∧ p.conf = c := by
  have hch' := hch
  unfold isChanged at hch'
  simp only [Bool.or_eq_false_iff, Bool.not_eq_false'] at hch'
  have hm : merged s own n c = p := by unfold merged; rw [hp]; dsimp only; rw [if_pos hch'.2]
  have hcf : p.conf = c := by have := hch'.2; unfold same at this; simp at this; exact this.2
  refine ⟨?_, hcf⟩
  unfold cloned
  rw [hm, hp]
  simp [hch]

/-- The deletions of a warm reload leave a port alone that is kept. -/
theorem delMsgs_kept (s : Sw) (confs : Dict Nat Conf) (own changed nom : List Nat) (n : Nat) (c : Conf) (p : Port)
    (hp : s.ports.get? n = some p) (hc : confs.get? n = some c) (hch : isChanged p own changed n c = false) :
    delMsgs s confs own changed nom n = [] := by
  unfold delMsgs; rw [hp]
  show (reloadDel confs own changed nom n p).2 = _
  unfold reloadDel
  rw [hc]
  dsimp only
  rw [if_neg (by simp [hch])]

theorem reloadAdd_kept (s : Sw) (own changed nom : List Nat) (n : Nat) (c : Conf) (p : Port)
    (hp : s.ports.get? n = some p) (hch : isChanged p own changed n c = false) :
    reloadAdd s own changed nom n c = (p, []) := by
  unfold reloadAdd
  rw [if_neg (by rw [hp]; simp [hch]), (cloned_kept s own changed n c p hp hch).1]

/-- A bundle member after a warm reload. -/
theorem reload_member (s : Sw) (confs : Dict Nat Conf) (own changed nom : List Nat) (h : Inv s) (hr : s.running = true)
    (n : Nat) (c : Conf) (hc : confs.get? n = some c) (hl : c.lacp ≠ 0) :
    PInv true (reloadAdd s own changed nom n c).1
      (rulesAfter n (addMsgs s confs own changed nom n) (rulesAfter n (delMsgs s confs own changed nom n) (n ∈ s.rules)))
      (dropAfter n (addMsgs s confs own changed nom n) (dropAfter n (delMsgs s confs own changed nom n) (n ∈ s.drop))) := by
  rw [addMsgs_some _ _ _ _ _ _ _ hc]
  by_cases hk : ∃ p, s.ports.get? n = some p ∧ isChanged p own changed n c = false
  · obtain ⟨p, hp, hch⟩ := hk
    have hcf := (cloned_kept s own changed n c p hp hch).2
    rw [delMsgs_kept _ _ _ _ _ _ _ _ hp hc hch, reloadAdd_kept _ _ _ _ _ _ _ hp hch]
    have := h.member n p hp (hcf ▸ hl)
    rw [hr] at this
    unfold rulesAfter dropAfter
    simpa using this
  · have hch : ∀ p, s.ports.get? n = some p → isChanged p own changed n c = true := by
      intro p hp
      by_contra hx
      exact hk ⟨p, hp, by simpa using hx⟩
    have hsh := reload_shut s confs own changed nom h hr n
      (fun p c' hp hc' => by rw [hc] at hc'; cases hc'; exact hch p hp)
    obtain ⟨hs1, hs2⟩ := hsh
    have hph := phys_cloned s own changed n c hch
    have hcc := conf_cloned s own changed n c
    have hlive : ∀ a, (cloned s own changed n c).actor = a → (a = .init ∨ a = .up ∨ a = .nosync) →
        ∃ p, s.ports.get? n = some p ∧ p.conf = c ∧ p.actor = a := by
      intro a ha hlv
      have ha : (merged s own n c).actor = a := ha
      rcases merged_cases s own n c with hm | ⟨p, hp, hcf, hm⟩
      · rw [hm] at ha
        subst ha
        simp at hlv
      · rw [hm] at ha; exact ⟨p, hp, hcf, ha⟩
    generalize rulesAfter n (delMsgs s confs own changed nom n) (n ∈ s.rules) = r at *
    generalize dropAfter n (delMsgs s confs own changed nom n) (n ∈ s.drop) = d at *
    unfold reloadAdd
    split
    · apply pinv_portAdd
      · rw [hcc]; exact hl
      · intro ha
        obtain ⟨p, hp, hcf, hpa⟩ := hlive _ rfl ha
        have := (h.member n p hp (hcf ▸ hl)).live (hpa ▸ ha)
        rw [hcc, ← hcf]
        unfold Port.running at this
        simp at this
        exact this.1
      · intro ha _
        obtain ⟨p, hp, hcf, hpa⟩ := hlive _ rfl (.inl ha)
        exact hs2 p hp (hcf ▸ hl) (.inl (hpa.trans ha))
      · intro _; exact hs1
    · rename_i hup
      have hna : ¬ ((cloned s own changed n c).actor = .init ∨ (cloned s own changed n c).actor = .up ∨
          (cloned s own changed n c).actor = .nosync) := by
        intro ha
        obtain ⟨p, hp, hcf, hpa⟩ := hlive _ rfl ha
        have hrun := (h.member n p hp (hcf ▸ hl)).live (hpa ▸ ha)
        have hpp : p.phys = true := by unfold Port.running at hrun; simp at hrun; exact hrun.2
        have := h.ups n p hp (hcf ▸ hl) hr hpp
        apply hup
        rw [hp]
        simp [this, hch p hp]
      refine ⟨fun ha => absurd ha hna, ?_, ?_, by simp⟩
      · intro _ hrun; unfold Port.running at hrun; rw [hph] at hrun; simp at hrun
      · intro _ hr'
        unfold rulesAfter at hr'
        unfold dropAfter
        simp only [List.not_mem_nil, false_or, not_false_eq_true, and_true] at hr' ⊢
        have : (cloned s own changed n c).actor ≠ .up := fun h => hna (.inr (.inl h))
        simp [hs1 hr', this]

/-- A port outside the configuration or without VLANs after a warm reload. -/
theorem reload_other (s : Sw) (confs : Dict Nat Conf) (own changed nom : List Nat) (h : Inv s) (hr : s.running = true)
    (n : Nat) (hc : ∀ c, confs.get? n = some c → c.lacp = 0 ∧ c.hasVlans = false) :
    rulesAfter n (addMsgs s confs own changed nom n) (rulesAfter n (delMsgs s confs own changed nom n) (n ∈ s.rules)) →
    dropAfter n (addMsgs s confs own changed nom n) (dropAfter n (delMsgs s confs own changed nom n) (n ∈ s.drop)) := by
  have hadd : addMsgs s confs own changed nom n = [] := by
    cases hcn : confs.get? n with
    | none => exact addMsgs_none _ _ _ _ _ _ hcn
    | some c =>
      rw [addMsgs_some _ _ _ _ _ _ _ hcn]
      obtain ⟨h1, h2⟩ := hc c hcn
      have hcc := conf_cloned s own changed n c
      unfold reloadAdd
      split
      · unfold portAdd
        dsimp only
        split
        · rfl
        · rw [if_neg (by rw [hcc]; simpa using h1)]
          simp [addPort, hcc, h2]
      · rfl
  rw [hadd]
  by_cases hk : ∃ p c, s.ports.get? n = some p ∧ confs.get? n = some c ∧ isChanged p own changed n c = false
  · obtain ⟨p, c, hp, hcn, hch⟩ := hk
    rw [delMsgs_kept _ _ _ _ _ _ _ _ hp hcn hch]
    have hcf := (cloned_kept s own changed n c p hp hch).2
    have := h.other n hr (by rw [hp]; intro p' hp'; cases hp'; rw [hcf]; exact hc c hcn)
    unfold rulesAfter dropAfter
    simpa using this
  · have hsh := (reload_shut s confs own changed nom h hr n (by
      intro p c hp hcn
      by_contra hx
      exact hk ⟨p, c, hp, hcn, by simpa using hx⟩)).1
    unfold rulesAfter dropAfter at hsh ⊢
    simpa using hsh

theorem phys_portAdd (p : Port) (n : Nat) (nom cold : Bool) : (portAdd p n nom cold).1.phys = true := by
  unfold portAdd
  dsimp only
  split
  · rfl
  · split
    · cases cold <;> rfl
    · rfl

/-- While the switch is not connected, a port that is not known to be up is down after a reload and not live. -/
theorem idle_clone (s : Sw) (own changed : List Nat) (h : Inv s) (hr : s.running = false) (n : Nat) (c : Conf) :
    (cloned s own changed n c).phys = false ∧ (coldClone s own n c).phys = false ∧ (c.lacp ≠ 0 →
      ¬ ((merged s own n c).actor = .init ∨ (merged s own n c).actor = .up ∨ (merged s own n c).actor = .nosync)) := by
  have hd := h.down hr n
  refine ⟨?_, ?_, ?_⟩
  · unfold cloned
    cases hp : s.ports.get? n with
    | none => rfl
    | some p => simp [hd p hp]
  · unfold coldClone
    cases hp : s.ports.get? n with
    | none => rfl
    | some p => simp [hd p hp]
  · intro hl ha
    rcases merged_cases s own n c with hm | ⟨p, hp, hcf, hm⟩
    · rw [hm] at ha; simp at ha
    · rw [hm] at ha
      have := (h.member n p hp (hcf ▸ hl)).live ha
      unfold Port.running at this
      rw [hd p hp] at this
      simp at this

theorem mem_upElse (s : Sw) (keys : List Nat) : ∀ n ∈ upElse s keys, n ∉ keys := by
  intro n hn
  unfold upElse at hn
  simpa using (List.mem_filter.1 hn).2

theorem inv_step (s : Sw) (op : Op) (h : Inv s) (hok : Calm s [op]) : Inv (step s op) := by
  cases op with
  | connect ups nom =>
    simp only [step]
    by_cases hr : s.running = true
    · rw [if_pos hr]; exact h
    rw [if_neg hr]
    have hr : s.running = false := by simpa using hr
    have hget : ∀ n q, (onPorts (flush s) (connPort ups nom)).ports.get? n = some q →
        ∃ p, s.ports.get? n = some p ∧ q = (connPort ups nom n p).1 := by
      intro n q hq
      rw [get?_onPorts] at hq
      obtain ⟨p, hp, rfl⟩ := Option.map_eq_some_iff.1 hq
      exact ⟨p, hp, rfl⟩
    have e1 : ∀ n, (n ∈ (flush s).rules) = False := by intro n; simp [flush]
    have e2 : ∀ n, (n ∈ (flush s).drop) = False := by intro n; simp [flush]
    refine ⟨(keys_onPorts (flush s) (connPort ups nom)).symm ▸ h.nodup, ?_, ?_, ?_, ?_, fun h0 => by cases h0⟩
    · intro n q hq hl
      obtain ⟨p, hp, rfl⟩ := hget n q hq
      obtain ⟨h1, h2, h3⟩ := onPorts_at (flush s) (connPort ups nom) (local_connPort ups nom) h.nodup n p hp
      rw [(local_connPort ups nom n p).2] at hl
      have hinv := h.member n p hp hl
      rw [hr] at hinv
      show PInv true _ (n ∈ (onPorts (flush s) (connPort ups nom)).rules) (n ∈ (onPorts (flush s) (connPort ups nom)).drop)
      rw [h2, h3, e1, e2]
      have hbase : PInv false p False False := ⟨hinv.live, by simp, by simp, fun _ => hinv.phys rfl⟩
      unfold connPort
      by_cases hc : ups.contains n = true
      · rw [if_pos hc]
        exact pinv_portAdd_cold p n _ hl hbase
      · rw [if_neg hc]
        refine ⟨hinv.live, ?_, ?_, by simp⟩
        · intro _ hrun
          have := hinv.phys rfl
          simp [Port.running, this] at hrun
        · intro _ hrr; unfold rulesAfter at hrr; simp at hrr
    · intro n _ hc hn
      change n ∈ (onPorts (flush s) (connPort ups nom)).rules at hn
      change ∀ p, (onPorts (flush s) (connPort ups nom)).ports.get? n = some p → _ at hc
      exfalso
      cases hp : s.ports.get? n with
      | none =>
        rw [(onPorts_absent (flush s) (connPort ups nom) (local_connPort ups nom) n hp).1, e1] at hn
        exact hn
      | some p =>
        obtain ⟨h1, h2, h3⟩ := onPorts_at (flush s) (connPort ups nom) (local_connPort ups nom) h.nodup n p hp
        have hc' := hc _ h1
        rw [(local_connPort ups nom n p).2] at hc'
        rw [h2, e1] at hn
        unfold rulesAfter at hn
        rcases hn with hn | hn
        · unfold connPort at hn
          split at hn
          · unfold portAdd at hn
            dsimp only at hn
            split at hn
            · simp at hn
            · rw [if_neg (by simpa using hc'.1)] at hn
              simp [addPort, hc'.2] at hn
          · simp at hn
        · exact hn.1
    · intro h0; cases h0
    · intro n q hq hl _ hph
      obtain ⟨p, hp, rfl⟩ := hget n q hq
      show n ∈ upElse s s.ports.keys ++ ups.filter (fun n => s.ports.keys.contains n)
      rw [List.mem_append, List.mem_filter]
      right
      unfold connPort at hph
      by_cases hc : ups.contains n = true
      · refine ⟨by simpa using hc, ?_⟩
        have := get?_isSome_iff_mem_keys.1 (by rw [hp]; rfl : (s.ports.get? n).isSome = true)
        simpa using this
      · rw [if_neg hc, h.down hr n p hp] at hph
        cases hph
  | disconnect nom =>
    simp only [step]
    have hget : ∀ n q, Dict.get? (s.ports.map (fun e => (e.1, (discPort nom e.1 e.2).1))) n = some q →
        ∃ p, s.ports.get? n = some p ∧ q = (portDelete p n (nom.contains p.conf.lacp)).1 := by
      intro n q hq
      rw [get?_map_ports s.ports (fun n p => (discPort nom n p).1) n] at hq
      obtain ⟨p, hp, rfl⟩ := Option.map_eq_some_iff.1 hq
      exact ⟨p, hp, rfl⟩
    refine ⟨(keys_map_ports s.ports (fun n p => (discPort nom n p).1)).symm ▸ h.nodup, ?_, ?_, ?_, ?_, fun _ =>
      (keys_map_ports s.ports (fun n p => (discPort nom n p).1)).symm ▸ mem_upElse s _⟩
    · intro n q hq hl
      obtain ⟨p, hp, rfl⟩ := hget n q hq
      rw [(local_portDelete ..).2] at hl
      refine ⟨?_, by simp, by simp, fun _ => phys_portDelete ..⟩
      rw [actor_portDelete _ _ _ hl]; simp
    · intro n h0; cases h0
    · intro _ n q hq
      obtain ⟨p, hp, rfl⟩ := hget n q hq
      exact phys_portDelete ..
    · intro n q hq hl h0; cases h0
  | portUp n nom =>
    simp only [step]
    by_cases hr : s.running = true
    · rw [if_pos hr]
      refine inv_onPort s n _ _ (fun p => local_statusUp ..) h hr ?_ ?_ ?_ ?_
      · intro p r d hp hl hinv
        unfold statusUp
        split
        · unfold rulesAfter dropAfter; simpa using hinv
        · rename_i hph
          have hna : ¬ (p.actor = .init ∨ p.actor = .up ∨ p.actor = .nosync) := by
            intro ha
            have := hinv.live ha
            unfold Port.running at this
            simp at this
            exact hph this.2
          refine pinv_portAdd p n _ r d hl (fun ha => absurd ha hna) (fun ha => absurd (.inl ha) hna) ?_
          intro _ hr'
          refine (hinv.drop rfl hr').2 ?_
          rintro ⟨_, ha⟩
          exact hna (.inr (.inl ha))
      · intro p h1 h2
        unfold statusUp portAdd
        dsimp only
        split
        · rfl
        · split
          · rfl
          · rw [if_neg (by simpa using h1)]
            simp [addPort, h2]
      · intro m hm _; exact List.mem_cons_of_mem _ hm
      · intro _ _ _ _; exact List.mem_cons_self ..
    · rw [if_neg hr]; exact h
  | portDown n nom =>
    simp only [step]
    by_cases hr : s.running = true
    · rw [if_pos hr]
      refine inv_onPort s n _ _ (fun p => local_statusDown ..) h hr ?_ ?_ ?_ ?_
      · intro p r d hp hl hinv
        unfold statusDown
        split
        · unfold portDelete
          dsimp only
          rw [if_pos hl]
          exact pinv_lacpUpdate { p with phys := false } n false Option.none Option.none _ r d
            (by simp [Port.running]) (hinv.drop rfl)
        · unfold rulesAfter dropAfter; simpa using hinv
      · intro p h1 h2
        unfold statusDown portDelete
        dsimp only
        split
        · rw [if_neg (by simpa using h1)]
          simp [delPort, h2]
        · rfl
      · intro m hm hne
        rw [List.mem_filter]
        exact ⟨hm, by simpa using hne⟩
      · intro p _ _ hph
        unfold statusDown at hph
        split at hph
        · rw [phys_portDelete] at hph; cases hph
        · rename_i hx; exact absurd hph hx
    · rw [if_neg hr]; exact h
  | pdu n now pkt nom =>
    simp only [step]
    by_cases hr : s.running = true
    · rw [if_pos hr, ← setUp_self]
      refine inv_onPort s n _ _ (fun p => local_lacpHandler ..) h hr ?_ ?_ ?_ ?_
      · intro p r d hp hl hinv
        unfold lacpHandler
        rw [if_pos hl]
        dsimp only
        generalize hp1 : (if pduReply p now pkt then { p with lastResp := some now } else p) = p1
        have e1 : p1.conf = p.conf := by rw [← hp1]; split <;> rfl
        have e2 : p1.running = p.running := by rw [← hp1]; split <;> rfl
        have e3 : p1.role = p.role := by rw [← hp1]; split <;> rfl
        have e4 : p1.actor = p.actor := by rw [← hp1]; split <;> rfl
        have hu := pinv_lacpUpdate p1 n pkt.sync (some now) (some pkt) (nom.contains p.conf.lacp) r d
          (by rw [e1, e2]; exact hinv.rules rfl) (by rw [e3, e4]; exact hinv.drop rfl)
        have hm : ∀ m : Msg, (∀ f, m ≠ .reply n f) → (m ∈ (if pduReply p now pkt then [Msg.reply n p.flags] else []) ++
            (lacpUpdate p1 n pkt.sync (some now) (some pkt) (nom.contains p.conf.lacp) false).2 ↔
            m ∈ (lacpUpdate p1 n pkt.sync (some now) (some pkt) (nom.contains p.conf.lacp) false).2) := by
          intro m hne
          rw [List.mem_append]
          constructor
          · rintro (hx | hx)
            · split at hx <;> simp at hx; exact absurd hx (hne _)
            · exact hx
          · exact .inr
        unfold rulesAfter dropAfter at hu ⊢
        rw [hm _ (by simp), hm _ (by simp), hm _ (by simp), hm _ (by simp)]
        exact hu
      · intro p h1 _
        unfold lacpHandler
        rw [if_neg (by simpa using h1)]
      · intro m hm _; exact hm
      · intro p hp hl hph
        rw [phys_lacpHandler] at hph
        exact h.ups n p hp hl hr hph
    · rw [if_neg hr]; exact h
  | expire now nom =>
    simp only [step]
    by_cases hr : s.running = true
    · rw [if_pos hr]
      have hget : ∀ n q, (onPorts s (expPort s.timeout now nom)).ports.get? n = some q →
          ∃ p, s.ports.get? n = some p ∧ q = (expPort s.timeout now nom n p).1 := by
        intro n q hq
        rw [get?_onPorts] at hq
        obtain ⟨p, hp, rfl⟩ := Option.map_eq_some_iff.1 hq
        exact ⟨p, hp, rfl⟩
      refine ⟨(keys_onPorts s _).symm ▸ h.nodup, ?_, ?_, ?_, ?_, fun h0 => by
        change s.running = false at h0; rw [hr] at h0; cases h0⟩
      · intro n q hq hl
        obtain ⟨p, hp, rfl⟩ := hget n q hq
        obtain ⟨h1, h2, h3⟩ := onPorts_at s (expPort s.timeout now nom) (local_expPort _ _ _) h.nodup n p hp
        rw [(local_expPort ..).2] at hl
        have hinv := h.member n p hp hl
        show PInv s.running _ _ _
        rw [h2, h3]
        rw [hr] at hinv ⊢
        unfold expPort portExpire
        split
        · exact pinv_lacpUpdate p n _ _ _ _ _ _ (hinv.rules rfl) (hinv.drop rfl)
        · unfold rulesAfter dropAfter
          simpa using hinv
      · intro n _ hc hn
        cases hp : s.ports.get? n with
        | none =>
          obtain ⟨h1, h2⟩ := onPorts_absent s (expPort s.timeout now nom) (local_expPort _ _ _) n hp
          rw [h1] at hn
          rw [h2]
          exact h.other n hr (by rw [hp]; intro p hp; cases hp) hn
        | some p =>
          obtain ⟨h1, h2, h3⟩ := onPorts_at s (expPort s.timeout now nom) (local_expPort _ _ _) h.nodup n p hp
          have hc' := hc _ h1
          rw [(local_expPort ..).2] at hc'
          rw [h2] at hn
          rw [h3]
          have hms : (expPort s.timeout now nom n p).2 = [] := by
            unfold expPort portExpire
            rw [if_neg (by rintro ⟨h', _⟩; exact h' hc'.1)]
          rw [hms] at hn ⊢
          unfold rulesAfter at hn
          unfold dropAfter
          simp only [List.not_mem_nil, false_or, not_false_eq_true, and_true] at hn ⊢
          exact h.other n hr (by rw [hp]; intro p' hp'; cases hp'; exact hc') hn
      · intro h0; change s.running = false at h0; rw [hr] at h0; cases h0
      · intro n q hq hl _ hph
        obtain ⟨p, hp, rfl⟩ := hget n q hq
        rw [(local_expPort ..).2] at hl
        unfold expPort at hph
        rw [phys_portExpire] at hph
        exact h.ups n p hp hl hr hph
    · rw [if_neg hr]; exact h
  | reload confs own changed nom =>
    simp only [step]
    obtain ⟨⟨hcn, hcalm⟩, _⟩ := hok
    have hget : ∀ n q, (reloadPorts s confs own changed nom).ports.get? n = some q →
        ∃ c, confs.get? n = some c ∧ q = (reloadAdd s own changed nom n c).1 := by
      intro n q hq
      have hq : Dict.get? (confs.map (fun e => (e.1, (reloadAdd s own changed nom e.1 e.2).1))) n = some q := hq
      rw [get?_map_confs confs (fun n c => (reloadAdd s own changed nom n c).1) n] at hq
      obtain ⟨c, hc, rfl⟩ := Option.map_eq_some_iff.1 hq
      exact ⟨c, hc, rfl⟩
    have hkeys : (reloadPorts s confs own changed nom).ports.keys.Nodup :=
      (keys_map_confs confs (fun n c => (reloadAdd s own changed nom n c).1)).symm ▸ hcn
    by_cases hr : s.running = true
    · rw [if_pos hr]
      have hat := reload_at s confs own changed nom h.nodup hcn
      refine ⟨hkeys, ?_, ?_, ?_, ?_, fun h0 => by change s.running = false at h0; rw [hr] at h0; cases h0⟩
      · intro n q hq hl
        obtain ⟨c, hc, rfl⟩ := hget n q hq
        rw [(reloadAdd_local ..).2] at hl
        show PInv s.running _ _ _
        rw [hr, (hat n).1, (hat n).2]
        exact reload_member s confs own changed nom h hr n c hc hl
      · intro n _ hc hn
        rw [(hat n).1] at hn
        rw [(hat n).2]
        refine reload_other s confs own changed nom h hr n ?_ hn
        intro c hcc
        have := hc (reloadAdd s own changed nom n c).1 (by
          show Dict.get? (confs.map (fun e => (e.1, (reloadAdd s own changed nom e.1 e.2).1))) n = _
          rw [get?_map_confs confs (fun n c => (reloadAdd s own changed nom n c).1) n, hcc]; rfl)
        rw [(reloadAdd_local ..).2] at this
        exact this
      · intro h0; change s.running = false at h0; rw [hr] at h0; cases h0
      · intro n q hq hl _ hph
        obtain ⟨c, hc, rfl⟩ := hget n q hq
        rw [(reloadAdd_local ..).2] at hl
        show n ∈ s.dynUp
        by_cases hk : ∃ p, s.ports.get? n = some p ∧ isChanged p own changed n c = false
        · obtain ⟨p, hp, hch⟩ := hk
          rw [reloadAdd_kept _ _ _ _ _ _ _ hp hch] at hph
          exact h.ups n p hp ((cloned_kept s own changed n c p hp hch).2 ▸ hl) hr hph
        · unfold reloadAdd at hph
          split at hph
          · rename_i hup
            simp at hup
            exact hup.1
          · rw [phys_cloned] at hph
            · cases hph
            · intro p hp
              by_contra hx
              exact hk ⟨p, hp, by simpa using hx⟩
    · rw [if_neg hr]
      have hr : s.running = false := by simpa using hr
      have hadd : ∀ n c, confs.get? n = some c → (reloadAdd s own changed nom n c).1 = cloned s own changed n c := by
        intro n c hc
        unfold reloadAdd
        rw [if_neg]
        intro hup
        simp at hup
        exact h.idle hr n hup.1 (hcalm hr n hup.1 (get?_isSome_iff_mem_keys.1 (by rw [hc]; rfl)))
      refine ⟨hkeys, ?_, ?_, ?_, ?_, fun _ n hn => by
        show n ∉ Dict.keys (confs.map (fun e => (e.1, (reloadAdd s own changed nom e.1 e.2).1)))
        rw [keys_map_confs confs (fun n c => (reloadAdd s own changed nom n c).1)]
        exact fun hk => h.idle hr n hn (hcalm hr n hn hk)⟩
      · intro n q hq hl
        obtain ⟨c, hc, rfl⟩ := hget n q hq
        rw [(reloadAdd_local ..).2] at hl
        show PInv s.running _ _ _
        rw [hr, hadd n c hc]
        obtain ⟨h1, _, h2⟩ := idle_clone s own changed h hr n c
        exact ⟨fun ha => absurd ha (h2 hl), by simp, by simp, fun _ => h1⟩
      · intro n h0; change s.running = true at h0; rw [hr] at h0; cases h0
      · intro _ n q hq
        obtain ⟨c, hc, rfl⟩ := hget n q hq
        rw [hadd n c hc]
        exact (idle_clone s own changed h hr n c).1
      · intro n q hq hl h0; change s.running = true at h0; rw [hr] at h0; cases h0
  | coldReload timeout confs own nom =>
    simp only [step]
    obtain ⟨⟨hcn, hcalm⟩, _⟩ := hok
    unfold coldPorts
    by_cases hr : s.running = true
    · rw [if_pos hr]
      have hget : ∀ n q, Dict.get? (confs.map (fun e => (e.1, (discPort nom e.1 (coldClone s own e.1 e.2)).1))) n = some q →
          ∃ p b, q = (portDelete p n b).1 := by
        intro n q hq
        rw [get?_map_confs confs (fun n c => (discPort nom n (coldClone s own n c)).1) n] at hq
        obtain ⟨c, hc, rfl⟩ := Option.map_eq_some_iff.1 hq
        exact ⟨_, _, rfl⟩
      refine ⟨(keys_map_confs confs (fun n c => (discPort nom n (coldClone s own n c)).1)).symm ▸ hcn, ?_, ?_, ?_, ?_,
        fun _ => (keys_map_confs confs (fun n c => (discPort nom n (coldClone s own n c)).1)).symm ▸ mem_upElse s _⟩
      · intro n q hq hl
        obtain ⟨p, b, rfl⟩ := hget n q hq
        rw [(local_portDelete ..).2] at hl
        refine ⟨?_, by simp, by simp, fun _ => phys_portDelete ..⟩
        rw [actor_portDelete _ _ _ hl]; simp
      · intro n h0; cases h0
      · intro _ n q hq
        obtain ⟨p, b, rfl⟩ := hget n q hq
        exact phys_portDelete ..
      · intro n q hq hl h0; cases h0
    · rw [if_neg hr]
      have hr : s.running = false := by simpa using hr
      have hget : ∀ n q, Dict.get? (confs.map (fun e => (e.1, coldClone s own e.1 e.2))) n = some q →
          ∃ c, q = coldClone s own n c := by
        intro n q hq
        rw [get?_map_confs confs (fun n c => coldClone s own n c) n] at hq
        obtain ⟨c, hc, rfl⟩ := Option.map_eq_some_iff.1 hq
        exact ⟨_, rfl⟩
      refine ⟨(keys_map_confs confs (fun n c => coldClone s own n c)).symm ▸ hcn, ?_, ?_, ?_, ?_, fun _ n hn => by
        show n ∉ Dict.keys (confs.map (fun e => (e.1, coldClone s own e.1 e.2)))
        rw [keys_map_confs confs (fun n c => coldClone s own n c)]
        exact fun hk => h.idle hr n hn (hcalm hr n hn hk)⟩
      · intro n q hq hl
        obtain ⟨c, rfl⟩ := hget n q hq
        obtain ⟨_, h1, h2⟩ := idle_clone s own [] h hr n c
        have hl : c.lacp ≠ 0 := by
          have : (coldClone s own n c).conf = c := conf_merged s own n c
          rw [this] at hl; exact hl
        refine ⟨fun ha => absurd ha (h2 hl), ?_, ?_, fun _ => h1⟩ <;>
        · intro h0; change s.running = true at h0; rw [hr] at h0; cases h0
      · intro n h0; change s.running = true at h0; rw [hr] at h0; cases h0
      · intro _ n q hq
        obtain ⟨c, rfl⟩ := hget n q hq
        exact (idle_clone s own [] h hr n c).2.1
      · intro n q hq hl h0; change s.running = true at h0; rw [hr] at h0; cases h0

theorem calm_cons {s : Sw} {op : Op} {ops : List Op} (h : Calm s (op :: ops)) : Calm s [op] ∧ Calm (step s op) ops := by
  obtain ⟨h1, h2⟩ := h
  exact ⟨⟨h1, trivial⟩, h2⟩

theorem calm_append {s : Sw} {a b : List Op} (h : Calm s (a ++ b)) : Calm s a ∧ Calm (run s a) b := by
  induction a generalizing s with
  | nil => exact ⟨trivial, h⟩
  | cons op a ih =>
    obtain ⟨h1, h2⟩ := h
    exact ⟨⟨h1, (ih h2).1⟩, (ih h2).2⟩

theorem calm_snoc {s : Sw} {a b : List Op} (h : Calm s a) (h' : Calm (run s a) b) : Calm s (a ++ b) := by
  induction a generalizing s with
  | nil => exact h'
  | cons op a ih => exact ⟨h.1, ih h.2 h'⟩

theorem inv_run (s : Sw) (h : Inv s) (ops : List Op) (hok : Calm s ops) : Inv (run s ops) := by
  induction ops generalizing s with
  | nil => exact h
  | cons op ops ih => exact ih _ (inv_step s op h (calm_cons hok).1) (calm_cons hok).2

theorem get?_start (timeout : Int) (confs : Dict Nat Conf) (n : Nat) :
    (start timeout confs).ports.get? n = (confs.get? n).map (fun c => { conf := c }) := by
  unfold start
  induction confs with
  | nil => rfl
  | cons e l ih =>
    obtain ⟨k, v⟩ := e
    by_cases h : k = n
    · subst h; simp [Dict.get?]
    · simp only [List.map_cons, Dict.get?, if_neg h] at ih ⊢; exact ih

theorem inv_start (timeout : Int) (confs : Dict Nat Conf) (hnd : confs.keys.Nodup) : Inv (start timeout confs) := by
  refine ⟨?_, ?_, ?_, ?_, ?_, fun _ n hn => by cases hn⟩
  · show (List.map _ (List.map _ confs)).Nodup
    rw [List.map_map]; exact hnd
  · intro n p hp _
    rw [get?_start] at hp
    obtain ⟨c, _, rfl⟩ := Option.map_eq_some_iff.1 hp
    refine ⟨by simp, fun h => ?_, fun h => ?_, by simp⟩ <;> cases h
  · intro n h; cases h
  · intro _ n p hp
    rw [get?_start] at hp
    obtain ⟨c, _, rfl⟩ := Option.map_eq_some_iff.1 hp
    rfl
  · intro n p hp _ h; cases h

/-- **C21.** At every point of any history of connections, link changes, LACP PDUs, timeouts, nominations and reloads of the
configuration, packets of a bundle member of a connected switch are admitted exactly when its role is SELECTED and its
actor state is UP. -/
theorem lacp_forwards_iff (timeout : Int) (confs : Dict Nat Conf) (hnd : confs.keys.Nodup) (ops : List Op)
    (hok : Calm (start timeout confs) ops) (n : Nat)
    (p : Port) (hp : (run (start timeout confs) ops).ports.get? n = some p) (hl : p.conf.lacp ≠ 0)
    (hv : p.conf.hasVlans = true) (hr : (run (start timeout confs) ops).running = true) :
    Forwards (run (start timeout confs) ops) n ↔ p.role = .selected ∧ p.actor = .up := by
  have h := (inv_run _ (inv_start timeout confs hnd) ops hok).member n p hp hl
  rw [hr] at h
  unfold Forwards
  constructor
  · rintro ⟨h1, h2⟩
    by_contra hc
    exact h2 ((h.drop rfl h1).2 hc)
  · intro hs
    have h1 := h.rules rfl (h.live (.inr (.inl hs.2))) hv
    exact ⟨h1, fun h2 => (h.drop rfl h1).1 h2 hs⟩

/-! ## The time of the last PDU -/

theorem lastHeard_append (n : Nat) (ops : List Op) (op : Op) :
    lastHeard n (ops ++ [op]) = match op with
      | .pdu m now pkt _ => if m = n then some (now, pkt) else lastHeard n ops
      | _ => lastHeard n ops := by
  unfold lastHeard
  rw [List.reverse_append]
  cases op <;> try rfl
  rename_i m now pkt nom
  by_cases h : m = n <;> simp [h]

/-- A port in state UP heard a PDU with the synchronization bit, at the recorded time, and nothing after it. -/
def Heard (n : Nat) (ops : List Op) (p : Port) : Prop :=
  p.actor = .up → ∃ t pkt, lastHeard n ops = some (t, pkt) ∧ p.updated = some t ∧ pkt.sync = true ∧ p.running = true

theorem heard_portAdd (n : Nat) (ops : List Op) (p : Port) (nom cold : Bool) (h : Heard n ops p)
    (hl : p.conf.lacp ≠ 0) : Heard n ops (portAdd p n nom cold).1 := by
  unfold portAdd
  dsimp only
  rw [if_pos hl]
  split
  · rename_i hr
    intro ha
    obtain ⟨t, pkt, h1, h2, h3, h4⟩ := h ha
    exfalso
    simp only [Port.running, Bool.not_eq_true', Bool.and_eq_false_iff] at hr h4
    simp at h4 hr
    rw [h4.1] at hr; cases hr
  · intro ha
    exact absurd ha (actor_noPdu_up { p with phys := true } n false Option.none nom cold)

theorem heard_portDelete (n : Nat) (ops : List Op) (p : Port) (nom : Bool) (hl : p.conf.lacp ≠ 0) :
    Heard n ops (portDelete p n nom).1 := by
  intro ha
  rw [actor_portDelete _ _ _ hl] at ha; cases ha

theorem heard_merged (n : Nat) (ops : List Op) (s : Sw) (own : List Nat) (c : Conf) (hl : c.lacp ≠ 0)
    (ih : ∀ p, s.ports.get? n = some p → p.conf.lacp ≠ 0 → Heard n ops p) : Heard n ops (merged s own n c) := by
  rcases merged_cases s own n c with hm | ⟨p, hp, hcf, hm⟩
  · rw [hm]; intro ha; exact absurd ha (by simp)
  · rw [hm]; exact ih p hp (hcf ▸ hl)

theorem heard_run (timeout : Int) (confs : Dict Nat Conf) (hnd : confs.keys.Nodup) (ops : List Op)
    (hok : Calm (start timeout confs) ops) :
    ∀ n p, (run (start timeout confs) ops).ports.get? n = some p → p.conf.lacp ≠ 0 → Heard n ops p := by
  induction ops using List.reverseRecOn with
  | nil =>
    intro n p hp hl
    change (start timeout confs).ports.get? n = some p at hp
    rw [get?_start] at hp
    obtain ⟨c, _, rfl⟩ := Option.map_eq_some_iff.1 hp
    intro h
    exact absurd h (by simp)
  | append_singleton ops op ih =>
    have hok1 := (calm_append hok).1
    have hok2 := (calm_append hok).2
    have hinv := inv_run _ (inv_start timeout confs hnd) ops hok1
    have ih := ih hok1
    have hrun : run (start timeout confs) (ops ++ [op]) = step (run (start timeout confs) ops) op := by
      unfold run; rw [List.foldl_append]; rfl
    rw [hrun]
    generalize run (start timeout confs) ops = s at *
    intro n q hq hl
    -- operations other than a PDU on `n` leave the last PDU alone
    have hkeep : ∀ p : Port, (∀ now pkt nom, op ≠ .pdu n now pkt nom) → Heard n ops p → Heard n (ops ++ [op]) p := by
      intro p hne h ha
      obtain ⟨t, pkt, h1, h2⟩ := h ha
      refine ⟨t, pkt, ?_, h2⟩
      rw [lastHeard_append]
      cases op <;> try exact h1
      rename_i m now pk nom
      dsimp only
      rw [if_neg (fun e => hne now pk nom (by rw [e]))]; exact h1
    cases op with
    | connect ups nom =>
      simp only [step] at hq
      by_cases hr : s.running = true
      · rw [if_pos hr] at hq
        exact hkeep _ (by simp) (ih n q hq hl)
      · rw [if_neg hr] at hq
        have hq0 : (onPorts (flush s) (connPort ups nom)).ports.get? n = some q := hq
        rw [get?_onPorts] at hq0
        obtain ⟨p, hp, rfl⟩ := Option.map_eq_some_iff.1 hq0
        have hp : s.ports.get? n = some p := hp
        refine hkeep _ (by simp) ?_
        rw [(local_connPort ..).2] at hl
        unfold connPort
        split
        · exact heard_portAdd n ops p _ _ (ih n p hp hl) hl
        · exact ih n p hp hl
    | disconnect nom =>
      simp only [step] at hq
      have hq0 : Dict.get? (s.ports.map (fun e => (e.1, (discPort nom e.1 e.2).1))) n = some q := hq
      rw [get?_map_ports s.ports (fun n p => (discPort nom n p).1) n] at hq0
      obtain ⟨p, hp, rfl⟩ := Option.map_eq_some_iff.1 hq0
      unfold discPort at hl ⊢
      rw [(local_portDelete ..).2] at hl
      exact heard_portDelete n _ p _ hl
    | portUp m nom =>
      simp only [step] at hq
      refine hkeep _ (by simp) ?_
      by_cases hr : s.running = true
      · rw [if_pos hr] at hq
        change (onPort s m (statusUp nom m)).ports.get? n = some q at hq
        by_cases hn : n = m
        · subst hn
          cases hp : s.ports.get? n with
          | none => unfold onPort at hq; rw [hp] at hq; exact ih n q hq hl
          | some p =>
            have := Option.some.inj ((onPort_self s _ n p hp).1.symm.trans hq)
            subst this
            rw [(local_statusUp ..).2] at hl
            unfold statusUp
            split
            · exact ih n p hp hl
            · exact heard_portAdd n ops p _ _ (ih n p hp hl) hl
        · rw [(onPort_other s _ m n (fun p => local_statusUp ..) hn).1] at hq
          exact ih n q hq hl
      · rw [if_neg hr] at hq
        exact ih n q hq hl
    | portDown m nom =>
      simp only [step] at hq
      refine hkeep _ (by simp) ?_
      by_cases hr : s.running = true
      · rw [if_pos hr] at hq
        change (onPort s m (statusDown nom m)).ports.get? n = some q at hq
        by_cases hn : n = m
        · subst hn
          cases hp : s.ports.get? n with
          | none => unfold onPort at hq; rw [hp] at hq; exact ih n q hq hl
          | some p =>
            have := Option.some.inj ((onPort_self s _ n p hp).1.symm.trans hq)
            subst this
            rw [(local_statusDown ..).2] at hl
            unfold statusDown
            split
            · exact heard_portDelete n ops p _ hl
            · exact ih n p hp hl
        · rw [(onPort_other s _ m n (fun p => local_statusDown ..) hn).1] at hq
          exact ih n q hq hl
      · rw [if_neg hr] at hq
        exact ih n q hq hl
    | pdu m now pkt nom =>
      simp only [step] at hq
      by_cases hr : s.running = true
      · rw [if_pos hr] at hq
        by_cases hn : n = m
        · subst hn
          cases hp : s.ports.get? n with
          | none =>
            unfold onPort at hq; rw [hp] at hq
            exact absurd (hp.symm.trans hq) (by simp)
          | some p =>
            have := Option.some.inj ((onPort_self s _ n p hp).1.symm.trans hq)
            subst this
            rw [(local_lacpHandler ..).2] at hl
            unfold lacpHandler
            rw [if_pos hl]
            dsimp only
            intro ha
            refine ⟨now, pkt, by rw [lastHeard_append]; simp, rfl, ?_, ?_⟩
            · rw [actor_lacpUpdate] at ha
              generalize (if pduReply p now pkt = true then _ else p : Port) = p1 at ha
              unfold Port.nextActor at ha
              cases hsy : pkt.sync
              · rw [hsy] at ha
                cases hrr : p1.running <;> rw [hrr] at ha <;> simp at ha
              · rfl
            · rw [actor_lacpUpdate] at ha
              rw [running_lacpUpdate]
              generalize (if pduReply p now pkt = true then _ else p : Port) = p1 at ha ⊢
              unfold Port.nextActor at ha
              cases hrr : p1.running
              · rw [hrr] at ha; simp at ha
              · rfl
        · rw [(onPort_other s _ m n (fun p => local_lacpHandler ..) hn).1] at hq
          exact hkeep _ (by intro a b c e; injection e with e1; exact hn e1.symm) (ih n q hq hl)
      · rw [if_neg hr] at hq
        intro ha
        obtain ⟨t, pk, h1, h2, h3, h4⟩ := ih n q hq hl ha
        have := hinv.down (by simpa using hr) n q hq
        simp [Port.running, this] at h4
    | expire now nom =>
      simp only [step] at hq
      refine hkeep _ (by simp) ?_
      by_cases hr : s.running = true
      · rw [if_pos hr] at hq
        rw [get?_onPorts] at hq
        obtain ⟨p, hp, rfl⟩ := Option.map_eq_some_iff.1 hq
        rw [(local_expPort ..).2] at hl
        unfold expPort portExpire
        split
        · intro ha; exact absurd ha (actor_noPdu_up _ _ _ _ _ _)
        · exact ih n p hp hl
      · rw [if_neg hr] at hq
        exact ih n q hq hl
    | reload confs' own changed nom =>
      simp only [step] at hq
      have hq : Dict.get? (confs'.map (fun e => (e.1, (reloadAdd s own changed nom e.1 e.2).1))) n = some q := by
        by_cases hr : s.running = true
        · rw [if_pos hr] at hq; exact hq
        · rw [if_neg hr] at hq; exact hq
      rw [get?_map_confs confs' (fun n c => (reloadAdd s own changed nom n c).1) n] at hq
      obtain ⟨c, hc, rfl⟩ := Option.map_eq_some_iff.1 hq
      rw [(reloadAdd_local ..).2] at hl
      refine hkeep _ (by simp) ?_
      unfold reloadAdd
      split
      · unfold portAdd
        dsimp only
        have hcl : (cloned s own changed n c).conf.lacp ≠ 0 := by rw [conf_cloned]; exact hl
        rw [if_pos hcl]
        have hm := heard_merged n ops s own c hl (ih n)
        split
        · rename_i hr
          intro ha
          obtain ⟨t, pkt, h1, h2, h3, h4⟩ := hm ha
          exfalso
          have hen : (cloned s own changed n c).conf.enabled = true := by
            rw [conf_cloned]
            rw [← conf_merged s own n c]
            unfold Port.running at h4
            simp at h4
            exact h4.1
          unfold Port.running at hr
          simp [hen] at hr
        · intro ha
          exact absurd ha (actor_noPdu_up { cloned s own changed n c with phys := true } n false Option.none
            (nom.contains c.lacp) false)
      · by_cases hk : ∃ p, s.ports.get? n = some p ∧ isChanged p own changed n c = false
        · obtain ⟨p, hp, hch⟩ := hk
          obtain ⟨h1, h2⟩ := cloned_kept s own changed n c p hp hch
          dsimp only
          rw [h1]
          exact ih n p hp (h2 ▸ hl)
        · rename_i hup
          intro ha
          exfalso
          rcases merged_cases s own n c with hm | ⟨p, hp, hcf, hm⟩
          · have ha : (merged s own n c).actor = .up := ha
            rw [hm] at ha; simp at ha
          · have ha : (merged s own n c).actor = .up := ha
            rw [hm] at ha
            obtain ⟨_, _, _, _, _, h4⟩ := ih n p hp (hcf ▸ hl) ha
            have hpp : p.phys = true := by unfold Port.running at h4; simp at h4; exact h4.2
            have hrr : s.running = true := by
              by_contra hx
              rw [hinv.down (by simpa using hx) n p hp] at hpp
              cases hpp
            have := hinv.ups n p hp (hcf ▸ hl) hrr hpp
            apply hup
            have hch : isChanged p own changed n c = true := by
              by_contra hx
              exact hk ⟨p, hp, by simpa using hx⟩
            rw [hp]
            simp [this, hch]
    | coldReload timeout' confs' own nom =>
      simp only [step] at hq
      unfold coldPorts at hq
      refine hkeep _ (by simp) ?_
      by_cases hr : s.running = true
      · rw [if_pos hr] at hq
        have hq : Dict.get? (confs'.map (fun e => (e.1, (discPort nom e.1 (coldClone s own e.1 e.2)).1))) n = some q := hq
        rw [get?_map_confs confs' (fun n c => (discPort nom n (coldClone s own n c)).1) n] at hq
        obtain ⟨c, hc, rfl⟩ := Option.map_eq_some_iff.1 hq
        unfold discPort at hl ⊢
        rw [(local_portDelete ..).2] at hl
        exact heard_portDelete n _ _ _ hl
      · rw [if_neg hr] at hq
        have hq : Dict.get? (confs'.map (fun e => (e.1, coldClone s own e.1 e.2))) n = some q := hq
        rw [get?_map_confs confs' (fun n c => coldClone s own n c) n] at hq
        obtain ⟨c, hc, rfl⟩ := Option.map_eq_some_iff.1 hq
        have hl : c.lacp ≠ 0 := by
          have : (coldClone s own n c).conf = c := conf_merged s own n c
          rw [this] at hl; exact hl
        intro ha
        exact absurd (.inr (.inl ha)) ((idle_clone s own [] hinv (by simpa using hr) n c).2.2 hl)

/-- A bundle member is UP only while its link is up and its partner's most recent PDU has the synchronization bit. -/
theorem up_means_synced (timeout : Int) (confs : Dict Nat Conf) (hnd : confs.keys.Nodup) (ops : List Op)
    (hok : Calm (start timeout confs) ops) (n : Nat)
    (p : Port) (hp : (run (start timeout confs) ops).ports.get? n = some p) (hl : p.conf.lacp ≠ 0) (hu : p.actor = .up) :
    ∃ t pkt, lastHeard n ops = some (t, pkt) ∧ p.updated = some t ∧ pkt.sync = true ∧ p.running = true :=
  heard_run timeout confs hnd ops hok n p hp hl hu

/-- The timeout in force: that of the configuration, which only a cold reload changes. -/
def timeoutNow (timeout : Int) (ops : List Op) : Int :=
  (ops.reverse.findSome? (fun o => match o with | .coldReload t _ _ _ => some t | _ => Option.none)).getD timeout

theorem step_timeout (s : Sw) (op : Op) :
    (step s op).timeout = match op with | .coldReload t _ _ _ => t | _ => s.timeout := by
  have h : ∀ n f, (onPort s n f).timeout = s.timeout := by
    intro n f; unfold onPort; split <;> rfl
  cases op <;> simp only [step, coldPorts]
  case portUp => split <;> first | exact h _ _ | rfl
  case portDown => split <;> first | exact h _ _ | rfl
  case pdu => split <;> first | exact h _ _ | rfl
  all_goals first
    | rfl
    | (split <;> rfl)

theorem timeout_run (s : Sw) (ops : List Op) : (run s ops).timeout = timeoutNow s.timeout ops := by
  induction ops using List.reverseRecOn with
  | nil => rfl
  | append_singleton ops op ih =>
    have hrun : run s (ops ++ [op]) = step (run s ops) op := by unfold run; rw [List.foldl_append]; rfl
    rw [hrun, step_timeout]
    unfold timeoutNow
    rw [List.reverse_append]
    cases op <;> simp [ih, timeoutNow]

/-- **C22, silence.** In any history, a bundle member that is UP and whose most recent PDU is older than the timeout is no
longer UP after an expiry check, and its packets are no longer admitted. -/
theorem silent_member_expires (timeout : Int) (confs : Dict Nat Conf) (hnd : confs.keys.Nodup) (ops : List Op)
    (hok : Calm (start timeout confs) ops) (n : Nat)
    (p : Port) (hp : (run (start timeout confs) ops).ports.get? n = some p) (hl : p.conf.lacp ≠ 0)
    (hr : (run (start timeout confs) ops).running = true) (now : Int) (nom : List Nat) (t : Int) (pkt : Pdu)
    (hh : lastHeard n ops = some (t, pkt)) (ht : now - t > timeoutNow timeout ops) :
    ∃ q, (run (start timeout confs) (ops ++ [.expire now nom])).ports.get? n = some q ∧ q.actor ≠ .up ∧
      (p.conf.hasVlans = true → ¬ Forwards (run (start timeout confs) (ops ++ [.expire now nom])) n) := by
  have hrun : run (start timeout confs) (ops ++ [.expire now nom]) = step (run (start timeout confs) ops) (.expire now nom) := by
    unfold run; rw [List.foldl_append]; rfl
  have hto : (run (start timeout confs) ops).timeout = timeoutNow timeout ops := timeout_run (start timeout confs) ops
  have hheard := heard_run timeout confs hnd ops hok n p hp hl
  have hget : (run (start timeout confs) (ops ++ [.expire now nom])).ports.get? n =
      some (portExpire p n (timeoutNow timeout ops) now (nom.contains p.conf.lacp)).1 := by
    rw [hrun]
    simp only [step]
    rw [if_pos hr]
    have h1 := (onPorts_at (run (start timeout confs) ops)
      (expPort (run (start timeout confs) ops).timeout now nom)
      (local_expPort _ _ _) (inv_run _ (inv_start timeout confs hnd) ops hok).nodup n p hp).1
    rw [h1, hto]; rfl
  have hact : (portExpire p n (timeoutNow timeout ops) now (nom.contains p.conf.lacp)).1.actor ≠ .up := by
    unfold portExpire
    split
    · exact actor_noPdu_up _ _ _ _ _ _
    · rename_i hc
      intro hu
      obtain ⟨t', pkt', e1, e2, _⟩ := hheard hu
      rw [hh] at e1
      injection e1 with e1
      injection e1 with e1 _
      subst e1
      apply hc
      refine ⟨hl, hu, ?_⟩
      rw [e2]; simpa using ht
  refine ⟨_, hget, hact, ?_⟩
  intro hv hfw
  have hok' := calm_snoc hok (show Calm _ [Op.expire now nom] from ⟨trivial, trivial⟩)
  have hc : (portExpire p n (timeoutNow timeout ops) now (nom.contains p.conf.lacp)).1.conf = p.conf := (local_portExpire ..).2
  have := (lacp_forwards_iff timeout confs hnd (ops ++ [.expire now nom]) hok' n _ hget (by rw [hc]; exact hl)
    (by rw [hc]; exact hv) (by rw [hrun]; simp only [step]; rw [if_pos hr]; exact hr)).1 hfw
  exact hact this.2

/-- **C22, life.** In any history, an expiry check leaves a bundle member that heard a PDU within the timeout as it is,
including its rules. -/
theorem live_member_kept (timeout : Int) (confs : Dict Nat Conf) (hnd : confs.keys.Nodup) (ops : List Op)
    (hok : Calm (start timeout confs) ops) (n : Nat)
    (p : Port) (hp : (run (start timeout confs) ops).ports.get? n = some p) (hl : p.conf.lacp ≠ 0)
    (now : Int) (nom : List Nat) (t : Int) (pkt : Pdu) (hh : lastHeard n ops = some (t, pkt)) (ht : now - t ≤ timeoutNow timeout ops) :
    (run (start timeout confs) (ops ++ [.expire now nom])).ports.get? n = some p ∧
      (Forwards (run (start timeout confs) (ops ++ [.expire now nom])) n ↔ Forwards (run (start timeout confs) ops) n) := by
  have hrun : run (start timeout confs) (ops ++ [.expire now nom]) = step (run (start timeout confs) ops) (.expire now nom) := by
    unfold run; rw [List.foldl_append]; rfl
  have hto : (run (start timeout confs) ops).timeout = timeoutNow timeout ops := timeout_run (start timeout confs) ops
  have hheard := heard_run timeout confs hnd ops hok n p hp hl
  rw [hrun]
  simp only [step]
  by_cases hr : (run (start timeout confs) ops).running = true
  · rw [if_pos hr]
    obtain ⟨h1, h2, h3⟩ := onPorts_at (run (start timeout confs) ops)
      (expPort (run (start timeout confs) ops).timeout now nom)
      (local_expPort _ _ _) (inv_run _ (inv_start timeout confs hnd) ops hok).nodup n p hp
    have hto' := hto
    have hsame : expPort (run (start timeout confs) ops).timeout now nom n p = (p, []) := by
      rw [hto']
      unfold expPort portExpire
      rw [if_neg]
      rintro ⟨_, hu, ha⟩
      obtain ⟨t', pkt', e1, e2, _⟩ := hheard hu
      rw [hh] at e1
      injection e1 with e1
      injection e1 with e1 _
      subst e1
      rw [e2] at ha
      simp at ha
      omega
    rw [hsame] at h1 h2 h3
    refine ⟨h1, ?_⟩
    unfold Forwards
    rw [h2, h3]
    unfold rulesAfter dropAfter
    simp
  · rw [if_neg hr]
    exact ⟨hp, Iff.rfl⟩

/-- **C21, at a PDU.** In any history, once a PDU from the partner of a member whose link is up is handled, packets of the
member are admitted if and only if the PDU has the synchronization bit and the member is set to be selected, or is not
set to be unselected and this switch is the nominated one for the bundle. -/
theorem pdu_decides_forwarding (timeout : Int) (confs : Dict Nat Conf) (hnd : confs.keys.Nodup) (ops : List Op)
    (hok : Calm (start timeout confs) ops) (n : Nat)
    (p : Port) (hp : (run (start timeout confs) ops).ports.get? n = some p) (hl : p.conf.lacp ≠ 0)
    (hv : p.conf.hasVlans = true) (hr : (run (start timeout confs) ops).running = true) (hup : p.running = true)
    (now : Int) (pkt : Pdu) (nom : List Nat) :
    Forwards (run (start timeout confs) (ops ++ [.pdu n now pkt nom])) n ↔
      pkt.sync = true ∧ (p.conf.selected = true ∨ (p.conf.unselected = false ∧ p.conf.lacp ∈ nom)) := by
  have hrun : run (start timeout confs) (ops ++ [.pdu n now pkt nom]) =
      onPort (run (start timeout confs) ops) n (fun p => lacpHandler p n now pkt (nom.contains p.conf.lacp)) := by
    unfold run; rw [List.foldl_append]; simp only [List.foldl_cons, List.foldl_nil, step]
    exact if_pos hr
  have hget := (onPort_self (run (start timeout confs) ops)
    (fun p => lacpHandler p n now pkt (nom.contains p.conf.lacp)) n p hp).1
  rw [← hrun] at hget
  have hc : (lacpHandler p n now pkt (nom.contains p.conf.lacp)).1.conf = p.conf := (local_lacpHandler ..).2
  have hok' := calm_snoc hok (show Calm _ [Op.pdu n now pkt nom] from ⟨trivial, trivial⟩)
  rw [lacp_forwards_iff timeout confs hnd _ hok' n _ hget (by rw [hc]; exact hl) (by rw [hc]; exact hv)
    (by rw [hrun, running_onPort]; exact hr)]
  unfold lacpHandler
  rw [if_pos hl]
  dsimp only
  have hq : ∀ q : Port, q.conf = p.conf → q.running = true →
      ((lacpUpdate q n pkt.sync (some now) (some pkt) (nom.contains p.conf.lacp) false).1.role = .selected ∧
        (lacpUpdate q n pkt.sync (some now) (some pkt) (nom.contains p.conf.lacp) false).1.actor = .up ↔
      pkt.sync = true ∧ (p.conf.selected = true ∨ (p.conf.unselected = false ∧ p.conf.lacp ∈ nom))) := by
    intro q hqc hqr
    rw [actor_lacpUpdate]
    have hrole : (lacpUpdate q n pkt.sync (some now) (some pkt) (nom.contains p.conf.lacp) false).1.role =
        if q.conf.selected then .selected else if q.conf.unselected then .unselected
        else if nom.contains p.conf.lacp then .selected else if q.conf.standby then .standby else .unselected := rfl
    rw [hrole, hqc]
    unfold Port.nextActor
    rw [hqr]
    cases hs : pkt.sync <;> cases h1 : p.conf.selected <;> cases h2 : p.conf.unselected <;>
      by_cases h3 : p.conf.lacp ∈ nom <;> cases h4 : p.conf.standby <;> simp [h3]
  apply hq
  · split <;> rfl
  · split
    · exact hup
    · exact hup

/-! ## What is told to the partner -/

/-- FAUCET tells its partner that it collects or distributes only if the port is selected, or set to do so always. -/
theorem collecting_only_when_selected (p : Port) (n : Nat) (now : Int) (pkt : Pdu) (nom : Bool) (sync col dist : Bool)
    (h : Msg.reply n (sync, col, dist) ∈ (lacpHandler p n now pkt nom).2) :
    (col = true ∨ dist = true → p.conf.collect = true ∨ p.role = .selected) ∧
      (sync = true → p.conf.collect = true ∨ p.role = .selected ∨ p.role = .standby) := by
  unfold lacpHandler at h
  split at h
  · rcases List.mem_append.1 h with h | h
    · split at h
      · simp only [List.mem_singleton, Msg.reply.injEq, true_and] at h
        unfold Port.flags at h
        split at h
        · rename_i hc; simp [hc]
        · split at h
          · rename_i hs
            simp only [Prod.mk.injEq] at h
            simp [h.1, h.2.1, h.2.2, hs]
          · split at h
            · rename_i hs; simp [hs]
            · simp only [Prod.mk.injEq] at h
              simp [h.1, h.2.1, h.2.2]
      · simp at h
    · exfalso
      rw [lacpUpdate_snd] at h
      generalize (lacpUpdate _ _ _ _ _ _ _).1 = q at h
      unfold lacpMsgs delPort addPort at h
      repeat' split at h
      all_goals simp at h
  · simp at h

end Faucet.Lacp
