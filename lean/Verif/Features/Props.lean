import Verif.Features.Routed
import Verif.Routed.Fib
import Verif.L2.ReloadModel

/-!
# Every rule fits the table it is put in

C70. For switches of the areas `L2` (with reloads) and `Routed`.
-/

namespace Faucet.Features
open Faucet.OF
open Faucet.Pipeline (Tbl Conf idOf)
open Faucet.L2 (Cfg)

/-- The flow mod is the one that deletes everything from every table. -/
def DeletesAll (f : FlowMod) : Prop := f.table = tableAll ∧ f.cmd = .delete ∧ f.mtch.items = [] ∧ f.inst = []

/-- **The flow mod is for a table of the datapath and fits how the table is declared**; the code's own checks raise no
exception. -/
def FitsTable (s : Setup) (f : FlowMod) : Prop :=
  ∃ t ∈ Pipeline.tables s.conf, f.table = t.id ∧ Fits (s.decl t.name) f ∧ verify (s.decl t.name) f = true

/-- All flow mods among the messages fit. -/
def AllFit (s : Setup) (ms : List OfMsg) : Prop := ∀ f, .flow f ∈ ms → DeletesAll f ∨ FitsTable s f

/-- **A switch that was sent these table features, and keeps to them, accepts the rule**: there is a table with the id of the
rule, and all that have it accept the rule. -/
def Accepted (ts : List Features) (f : FlowMod) : Prop := (∃ x ∈ ts, x.id = f.table) ∧ ∀ x ∈ ts, x.id = f.table → Accepts x f

/-- All rules that the messages put into tables are accepted. -/
def AllAccepted (ts : List Features) (ms : List OfMsg) : Prop := ∀ f, .flow f ∈ ms → Puts f → Accepted ts f

/-- The declarations of tables name each field once. -/
def DeclsOk (s : Setup) : Prop := ∀ t, (s.decl t).Ok

theorem decls_std {s : Setup} (h : ∀ t, s.NoAcl t) : DeclsOk s := by
  intro t
  rw [decl_std (h t)]
  have : ∀ e x r, decide (((std e x r).decl t).matchTypes.map (·.1)).Nodup = true := by cases t <;> decide
  have := this s.conf.egressPipeline s.externals s.restricted
  exact (decide_eq_true_iff (p := (((std s.conf.egressPipeline s.externals s.restricted).decl t).matchTypes.map (·.1)).Nodup)).1 this

theorem fit_of_law {h : Hardware} {s : Setup} {eg : Bool} (hd : DeclsOk s) {f : FlowMod} (l : FlowLaw h s eg f) :
    DeletesAll f ∨ FitsTable s f := by
  rcases l with l | ⟨t, ht, e, l⟩
  · exact Or.inl l
  · have ft : Fits (s.decl t.name) f := by
      rcases l with l | l | l
      · exact rule_fits l
      · exact miss_fits l
      · exact del_fits l
    exact Or.inr ⟨t, (Pipeline.table_mem ht).1, e, ft, verify_of_fits (hd _) ft⟩

theorem fits_of_laws {h : Hardware} {s : Setup} {eg : Bool} (hd : DeclsOk s) {ms : List OfMsg} (l : ∀ m ∈ ms, MsgLaw h s eg m) :
    AllFit s ms := fun _ hf => fit_of_law hd (l _ hf)

/-- No two tables of the datapath have the same id. -/
def Separated (c : Conf) : Prop := c.static = true → ¬ (c.copro = true ∧ c.vlanAcls = true)

theorem unique_id {c : Conf} (hs : Separated c) {x y : Pipeline.TableConfig} (hx : x ∈ Pipeline.tables c) (hy : y ∈ Pipeline.tables c)
    (e : x.id = y.id) : x = y := by
  obtain ⟨a, ha⟩ := Pipeline.exists_table (Pipeline.mem_tables hx).1
  obtain ⟨b, hb⟩ := Pipeline.exists_table (Pipeline.mem_tables hy).1
  have ea : a = x := Pipeline.names_inj (Pipeline.table_mem ha).1 hx (Pipeline.table_mem ha).2
  have eb : b = y := Pipeline.names_inj (Pipeline.table_mem hb).1 hy (Pipeline.table_mem hb).2
  subst ea eb
  exact Pipeline.names_inj hx hy (Pipeline.id_unique ha hb hs e)

theorem accepted_of_law {h : Hardware} {s : Setup} (hs : Separated s.conf) {f : FlowMod} (hp : Puts f) (l : FlowLaw h s false f) :
    Accepted (loadTables h s) f := by
  rcases l with l | ⟨t, ht, e, l⟩
  · rcases hp with hp | hp <;> rw [l.2.1] at hp <;> cases hp
  · have ac : Accepts (tableFeatures h s t) f := by
      rcases l with l | l | l
      · exact rule_accepted ht l
      · exact miss_accepted l
      · exact absurd hp l.del
    refine ⟨⟨_, List.mem_map.2 ⟨t, (Pipeline.table_mem ht).1, rfl⟩, e.symm⟩, ?_⟩
    intro x hx ex
    obtain ⟨t', ht', rfl⟩ := List.mem_map.1 hx
    have : t' = t := unique_id hs ht' (Pipeline.table_mem ht).1 (by rw [← e]; exact ex)
    rw [this]
    exact ac

theorem accepted_of_laws {h : Hardware} {s : Setup} (hs : Separated s.conf) {ms : List OfMsg} (l : ∀ m ∈ ms, MsgLaw h s false m) :
    AllAccepted (loadTables h s) ms := fun _ hf hp => accepted_of_law hs hp (l _ hf)

/-! ## Switching -/

section
variable {c : Cfg} {hw : Hardware}

theorem sep (c : Cfg) : Separated (setup c).conf := fun h => by cases h

theorem declsOk (c : Cfg) : DeclsOk (setup c) := decls_std (fun _ => rfl)

/-- What the switch must be able to do for the configuration. -/
def Able (hw : Hardware) (c : Cfg) : Prop := c.groupTable = true → hw.groups = true

/-- **Whatever happens, each rule FAUCET makes for a switch fits its table**: connecting, ports that go up or down, packets,
LACP, timeouts. No state is excluded. -/
theorem rules_fit_partial (ok : CfgOk c) {st st' : L2.Ctl} {ev : L2.Ev} {ms : List OfMsg} (h : c.react st ev = some (ms, st')) :
    AllFit (setup c) ms :=
  fits_of_laws (h := ⟨true, true⟩) (declsOk c) (react_law ok (fun _ => rfl) h)

theorem law_false (he : c.egressPipeline = false) {m : OfMsg} (h : Law hw c m) : MsgLaw hw (setup c) false m := by
  have e : egOf c = false := by
    show (c.egressPipeline || false) = false
    rw [he]
    rfl
  have h : MsgLaw hw (setup c) (egOf c) m := h
  rw [e] at h
  exact h

/-- **A switch that keeps to the table features that FAUCET sends it accepts every rule.** Not with an egress pipeline, see
`Ex.metadata_unannounced_defect`. -/
theorem rules_accepted_partial (ok : CfgOk c) (he : c.egressPipeline = false) (ha : Able hw c) {st st' : L2.Ctl} {ev : L2.Ev}
    {ms : List OfMsg} (h : c.react st ev = some (ms, st')) : AllAccepted (loadTables hw (setup c)) ms :=
  accepted_of_laws (sep c) (fun m hm => law_false he (react_law ok ha h m hm))

/-! ## A reload that does not restart the switch -/

theorem oldMsgs_law {c : Cfg} (ok : CfgOk c) (ha : Able hw c) {ch : L2.Changes} {lag : Nat → Nat → L2.LagChange} {w : L2.Warm} :
    ∀ m ∈ L2.oldMsgs c ch lag w, Law hw c m :=
  laws_append (laws_append (deleteMsgs_law ok ha) (deleteMsgs_law ok ha)) (laws_flat (fun _ _ => delVlan_law))

theorem newMsgs_law {c : Cfg} (ok : CfgOk c) (ha : Able hw c) {ch : L2.Changes} {kn : Nat → Bool} {lag : Nat → Nat → L2.LagChange}
    {w : L2.Warm} : ∀ m ∈ L2.newMsgs c ch kn lag w, Law hw c m :=
  laws_append (laws_append (laws_append (addMsgs_law ok ha) (addMsgs_law ok ha)) (laws_flat (fun _ _ => delVlan_law)))
    (laws_flat (fun _ _ => addVlan_law ok ha))

theorem mem_reload {c c' : Cfg} {sec : L2.Sections} {ch : L2.Changes} {lag : Nat → Nat → L2.LagChange} {s s' : L2.Ctl}
    {ms : List OfMsg} (h : L2.reload c c' sec ch lag s = some (ms, s')) {m : OfMsg} (hm : m ∈ ms) :
    ∃ w, m ∈ L2.oldMsgs c ch lag w ∨ m ∈ L2.newMsgs c' ch s.known lag w := by
  unfold L2.reload at h
  by_cases h1 : ch.none = true
  · rw [if_pos h1] at h
    cases h
    cases hm
  · rw [if_neg h1] at h
    obtain ⟨st, _, e⟩ := Option.map_eq_some_iff.1 h
    simp only [Prod.mk.injEq] at e
    rw [← e.1] at hm
    by_cases h2 : s.running = true
    · rw [if_pos h2] at hm
      exact ⟨_, List.mem_append.1 hm⟩
    · rw [if_neg h2] at hm
      cases hm

/-- **Also at a reload that does not restart the switch**: each rule fits the table of the old configuration, or that of the
new one. -/
theorem reload_fits_partial {c c' : Cfg} (ok : CfgOk c) (ok' : CfgOk c') {sec : L2.Sections} {ch : L2.Changes}
    {lag : Nat → Nat → L2.LagChange} {s s' : L2.Ctl} {ms : List OfMsg} (h : L2.reload c c' sec ch lag s = some (ms, s')) {f : FlowMod}
    (hf : .flow f ∈ ms) : DeletesAll f ∨ FitsTable (setup c) f ∨ FitsTable (setup c') f := by
  obtain ⟨w, hm | hm⟩ := mem_reload h hf
  · rcases fit_of_law (declsOk c) (oldMsgs_law (hw := ⟨true, true⟩) ok (fun _ => rfl) _ hm) with h | h
    · exact Or.inl h
    · exact Or.inr (Or.inl h)
  · rcases fit_of_law (declsOk c') (newMsgs_law (hw := ⟨true, true⟩) ok' (fun _ => rfl) _ hm) with h | h
    · exact Or.inl h
    · exact Or.inr (Or.inr h)

/-- **Accepted at a reload**: if the pipeline is the same (`TfmValve._pipeline_change`, `faucet/valve.py` 1892-1900, is what
restarts the switch otherwise), the table features that the switch was sent before allow every rule. -/
theorem reload_accepted_partial {c c' : Cfg} (ok : CfgOk c) (ok' : CfgOk c') (he : c.egressPipeline = false)
    (he' : c'.egressPipeline = false) (ha : Able hw c) (ha' : Able hw c')
    (same : loadTables hw (setup c') = loadTables hw (setup c)) {sec : L2.Sections} {ch : L2.Changes}
    {lag : Nat → Nat → L2.LagChange} {s s' : L2.Ctl} {ms : List OfMsg} (h : L2.reload c c' sec ch lag s = some (ms, s')) :
    AllAccepted (loadTables hw (setup c)) ms := by
  intro f hf hp
  obtain ⟨w, hm | hm⟩ := mem_reload h hf
  · exact accepted_of_law (sep c) hp (law_false he (oldMsgs_law ok ha _ hm))
  · have := accepted_of_law (sep c') hp (law_false he' (newMsgs_law ok' ha' _ hm))
    rw [same] at this
    exact this

end

/-! ## Routing -/

section
variable {hw : Hardware}

/-- **The rules of the route managers of both families fit**, whatever they are asked. -/
theorem route_rules_fit_partial {s : Setup} {fib : Tbl} {m : Route.Mgr} (w : RouteSetup s fib m) (hd : DeclsOk s)
    {vs : List Route.Vlan} (hc : Route.ConfOk m vs) (e : Route.Env) {P : Route.Net → Prop} {st : Route.St} {o : Route.Op}
    (ht : Route.Tame m vs P st o) : AllFit s (Route.flowMods (m.step e st o).2) :=
  fits_of_laws (h := ⟨true, true⟩) (eg := false) hd (fun x hx => fibMsg_law w (fun _ => rfl) (Routed.fib_step hc e ht x hx))

/-- **And are accepted**, if the switch can decrement the TTL when FAUCET wants it to. -/
theorem route_rules_accepted_partial {s : Setup} {fib : Tbl} {m : Route.Mgr} (w : RouteSetup s fib m) (hs : Separated s.conf)
    (hw' : m.decTtl = true → hw.decTtl = true) {vs : List Route.Vlan} (hc : Route.ConfOk m vs) (e : Route.Env)
    {P : Route.Net → Prop} {st : Route.St} {o : Route.Op} (ht : Route.Tame m vs P st o) :
    AllAccepted (loadTables hw s) (Route.flowMods (m.step e st o).2) :=
  accepted_of_laws hs (fun x hx => fibMsg_law w hw' (Routed.fib_step hc e ht x hx))

/-- **The rules for the router's addresses fit and are accepted**, those when the switch connects or a port comes up. -/
theorem vip_rules_fit_partial {c : Routed.RCfg} (ok : CfgOk c.l2) (h4 : c.l2.ipv4 = true) (ev : L2.Ev) :
    AllFit (setup c.l2) (c.evMsgs ev) ∧ (c.l2.egressPipeline = false → AllAccepted (loadTables hw (setup c.l2)) (c.evMsgs ev)) :=
  ⟨fits_of_laws (h := ⟨true, true⟩) (declsOk c.l2) (evMsgs_law ok h4),
    fun he => accepted_of_laws (sep c.l2) (fun m hm => law_false he (evMsgs_law ok h4 m hm))⟩

end

end Faucet.Features
