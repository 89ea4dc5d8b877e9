import Verif.Gauge.Polls
import Verif.Gauge.Prom

/-!
# Gauge: cases that meet the hypotheses, and defects
-/

namespace Faucet.Gauge.Ex

/-! ## Polling -/

/-- Switch 1: port statistics to a file every 30 s and to Prometheus every 10 s, flow tables, port state, meters.  Switch 2:
port statistics. -/
def confs : List WConf :=
  [{ dp := 1, kind := .portStats, interval := 30 }, { dp := 1, kind := .portStats, interval := 10, prom := true },
   { dp := 1, kind := .flowTable, interval := 40 }, { dp := 2, kind := .portStats, interval := 30 },
   { dp := 1, kind := .portState }, { dp := 1, kind := .meterStats, prom := true }]

/-- Switch 1 connects, the configuration is read, switch 1 reconnects, the configuration is read again, switch 2 connects and
goes. -/
def es : List Event :=
  [.connect 1 100 0 (fun _ => 3), .load (some confs) 5 (fun u => u), .connect 1 101 20 (fun u => 2 * u),
   .load (some confs) 30 (fun u => u), .connect 2 200 31 (fun _ => 0), .disconnect 2]

/-- `polled_once` is about a state with twelve watchers, and threads for three statistics of switch 1. -/
example : ((run init es).ws ++ (run init es).old).length = 12 ∧
    (((run init es).ws ++ (run init es).old).filter (fun w => w.thread.isSome)).map (fun w => (w.conf.dp, w.conf.kind)) =
      [(1, .portStats), (1, .flowTable), (1, .meterStats)] ∧
    linked es 1 = some 101 ∧ linked es 2 = none ∧ configured es = confs := by decide +kernel

/-- `asks_what_is_wanted_partial` and `next_request`: the hypothesis is met, for a switch that then answers and does not. -/
example : ((run init es).step (.wake 6 37)).2 = [.ask 101 .portStats] ∧
    ((run init (es ++ .wake 6 37 :: [.reply 1 .portStats])).step (.wake 6 67)).2 = [.ask 101 .portStats] ∧
    ((run init (es ++ .wake 6 37 :: [.reply 1 .flowTable])).step (.wake 6 68)).2 =
      [.noResponse 6, .ask 101 .portStats] ∧
    ((run init (es ++ [.wake 6 37])).step (.wake 6 66)).2 = [] := by decide +kernel

/-- `first_request`: the hypotheses are met, when a switch connects and when a configuration is read. -/
example : StartsAt 2 31 (.connect 2 200 31 (fun _ => 0)) ∧ Leads confs { dp := 2, kind := .portStats, interval := 30 } ∧
    StartsAt 1 5 (.load (some confs) 5 (fun u => u)) ∧ Leads confs { dp := 1, kind := .flowTable, interval := 40 } := by
  refine ⟨⟨rfl, rfl⟩, ⟨confs.take 3, confs.drop 4, rfl, by decide⟩, rfl, ⟨confs.take 2, confs.drop 3, rfl, by decide⟩⟩

/-- `reply_recorded`: two watchers are passed the reply. -/
example : ((run init es).step (.reply 1 .portStats)).2 = [.record 6, .record 7] := by decide +kernel

/-- `late_reply_dropped_partial`: its hypotheses are met. -/
example : linked es 2 = none ∧ ((configured es).filter (fun w => w.dp == 2 && w.kind == .portStats)).length ≤ 1 ∧
    ((run init es).step (.reply 2 .portStats)).2 = [] := by decide +kernel

/-- `status_right`. -/
example : (run init es).status 1 = some true ∧ (run init es).status 2 = some false ∧ (run init es).status 3 = none := by
  decide +kernel

/-- Meters exported to Prometheus are never asked for: the poller asks for port statistics instead.  (The switch's answer is
then taken for an answer by pollers of port statistics, and "no response" is reported for meters every time.) -/
theorem meters_never_asked_defect :
    ∃ cs, (∃ c ∈ cs, c.dp = 1 ∧ c.kind = .meterStats ∧ 0 < c.interval) ∧
      ∀ es e c, configured es = cs → .ask c .meterStats ∉ ((run init es).step e).2 := by
  refine ⟨[{ dp := 1, kind := .meterStats, prom := true }], ⟨_, List.mem_singleton_self _, rfl, rfl, by decide⟩, ?_⟩
  intro es e c he ha
  obtain ⟨w, ⟨a, b, hab, -⟩, -, -, hk⟩ := asks_what_is_wanted_partial es e c .meterStats ha
  have hw : w = { dp := 1, kind := .meterStats, prom := true } := by
    have : w ∈ configured es := by rw [hab]; simp
    rw [he] at this
    simpa using this
  have h := inv_run es
  obtain ⟨v, hv, t, -, ha⟩ := ask_source h ha
  obtain ⟨-, hk', -⟩ := wake_asks v t c .meterStats ha
  have : v.conf ∈ configured es := by rw [← h.conf]; exact List.mem_map.2 ⟨v, hv, rfl⟩
  rw [he] at this
  rw [show v.conf = { dp := 1, kind := .meterStats, prom := true } by simpa using this] at hk'
  simp [WConf.asks] at hk'

/-- ... while "no response" is reported in every cycle, though the switch answers each request. -/
theorem meters_no_response_defect :
    let es := [Event.load (some [{ dp := 1, kind := .meterStats, interval := 10, prom := true }]) 0 (fun _ => 0),
      .connect 1 100 0 (fun _ => 0), .wake 0 1, .reply 1 .portStats]
    ((run init es).step (.wake 0 11)).2 = [.noResponse 0, .ask 100 .portStats] := by decide +kernel

/-- A second watcher of a statistic asks for the statistic more often than the first: it is polled at the first one's
interval, and the second's is ignored. -/
theorem shorter_interval_ignored_defect :
    { dp := 1, kind := .portStats, interval := 10, prom := true } ∈ configured es ∧
    ((run init (es ++ [.wake 6 37])).step (.wake 6 47)).2 = [] ∧ ((run init (es ++ [.wake 6 37])).step (.wake 7 47)).2 = [] := by
  decide +kernel

/-- A watcher that does not poll itself, as another one does, goes on to be passed replies after the switch has
disconnected, and so does one for port state. -/
theorem late_reply_recorded_defect :
    let fs := es ++ [.disconnect 1]
    linked fs 1 = none ∧ ((run init fs).step (.reply 1 .portStats)).2 = [.record 7] ∧
      ((run init fs).step (.reply 1 .portState)).2 = [.record 10] := by decide +kernel

def zero : List Event :=
  [.load (some [{ dp := 1, kind := .portStats, interval := 0 }]) 0 (fun _ => 0), .connect 1 100 0 (fun _ => 0)]

def dead : Watcher where
  uid := 0
  conf := { dp := 1, kind := .portStats, interval := 0 }
  conn := some 100
  running := true
  thread := some ⟨none, false⟩

/-- A watcher with interval 0 is accepted; its thread dies when it starts, nothing is ever asked, and nothing notices: the
thread counts as active. -/
theorem zero_interval_defect :
    ((run init zero).ws.map Watcher.isActive = [true]) ∧ ∀ uid t, ((run init zero).step (.wake uid t)).2 = [] := by
  refine ⟨by decide +kernel, ?_⟩
  intro uid t
  have h : (run init zero).ws = [dead] := by decide +kernel
  have ho : (run init zero).old = [] := by decide +kernel
  simp only [State.step, h, ho, wakeIn, Watcher.wake, dead]
  split <;> rfl

/-! ## Flow counts -/

/-- Table 9 is called 4. -/
def name : Nat → Option Nat
  | 9 => some 4
  | 3 => some 1
  | _ => none

/-- Key 0 is the switch, 1 the priority, 2 `in_port`, 3 `eth_dst`. -/
def flows : List Flow :=
  [⟨9, [(0, 1), (1, 10), (2, 5)], 7, 700⟩, ⟨9, [(0, 1), (1, 10)], 8, 800⟩, ⟨3, [(0, 1), (1, 20), (3, 6)], 9, 900⟩]

def later : List Flow :=
  [⟨9, [(0, 1), (1, 10), (2, 5)], 17, 1700⟩, ⟨9, [(0, 1), (1, 10)], 18, 1800⟩, ⟨3, [(0, 1), (1, 20), (3, 6)], 19, 1900⟩]

/-- The registry after a reply. -/
def after (ms : List (List Flow)) : Reg := (Reg.empty.replies name ms).getD Reg.empty

theorem noBlank_of {d : Dict Nat Nat} (h : d.all (fun e => e.2 != 0) = true) : NoBlank d := by
  intro k hk
  have := List.all_eq_true.1 h _ (Dict.mem_of_get? hk)
  simp at this

/-- `second_reply_exported` (and so `counts_exported_partial`) applies to `flows` and `later`, and exports the counts. -/
example : (∀ f ∈ flows, (name f.table).isSome = true) ∧
    (∀ g ∈ later, ∃ f ∈ flows, f.table = g.table ∧ f.tags.keys = g.tags.keys) ∧ (∀ g ∈ later, NoBlank g.tags) ∧
    Distinct name later ∧ (after [flows, later]).sample 4 .packets [(0, 1), (1, 10), (2, 5)] = some 17 ∧
    (after [flows, later]).sample 4 .bytes [(0, 1), (1, 10)] = some 1800 := by
  refine ⟨by decide, by decide, ?_, ?_, by decide +kernel, by decide +kernel⟩
  · intro g hg
    apply noBlank_of
    revert g; decide
  · simp only [Distinct, later, List.pairwise_cons, List.mem_cons, List.not_mem_nil, or_false, forall_eq_or_imp, forall_eq]
    refine ⟨⟨fun _ => ⟨2, by decide⟩, fun h => absurd h (by decide)⟩, fun h => absurd h (by decide), nofun, ?_⟩
    exact List.Pairwise.nil

/-- `counts_were_reported`: its hypotheses are met. -/
example : (Reg.empty.replies name [flows, later]).isSome = true ∧ Named (after [flows, later]) 4 [(0, 1), (1, 10)] ∧
    NoBlank [(0, 1), (1, 10)] := by
  refine ⟨by decide +kernel, ?_, noBlank_of (by decide)⟩
  unfold Named; decide +kernel

/-- `other_tables_kept`: a flow of table 9 with a new tag, and one of table 3 from before. -/
example : (∀ f ∈ ([⟨9, [(0, 1), (7, 7)], 1, 1⟩] : List Flow), name f.table ≠ some 1) ∧
    (after [flows, [⟨9, [(0, 1), (7, 7)], 1, 1⟩]]).sample 1 .bytes [(0, 1), (1, 20), (3, 6)] = some 900 := by decide +kernel

/-- A flow of a reply has a new tag: what the reply said of flows of the table before it is no longer exported. -/
theorem earlier_flows_lost_defect :
    let fs := [⟨9, [(0, 1), (1, 10)], 8, 800⟩, ⟨9, [(0, 1), (1, 10), (2, 5)], 7, 700⟩]
    (Reg.empty.reply name fs).isSome = true ∧ (after [fs]).sample 4 .packets [(0, 1), (1, 10)] = none ∧
      (after [fs]).sample 4 .packets [(0, 1), (1, 10), (2, 5)] = some 7 := by decide +kernel

/-- ... and so are the flows of all other switches. -/
theorem other_switches_lost_defect :
    let one := [⟨9, [(0, 1), (1, 10)], 8, 800⟩]
    let other := [⟨9, [(0, 2), (1, 10), (2, 5)], 7, 700⟩]
    (after [one]).sample 4 .packets [(0, 1), (1, 10)] = some 8 ∧
      (after [one, other]).sample 4 .packets [(0, 1), (1, 10)] = none := by decide +kernel

/-- A flow that is no longer in the switch stays exported with its last counts, through any number of replies without it and
through reloads. -/
theorem gone_flow_exported_defect :
    let rest := [⟨9, [(0, 1), (1, 10)], 9, 900⟩]
    ∀ n, ∃ r, Reg.replies name (after [flows]).reload (List.replicate n rest) = some r ∧
      r.sample 4 .packets [(0, 1), (1, 10), (2, 5)] = some 7 := by
  intro rest n
  have key : ∀ (n : Nat) (r : Reg), r.names 4 = [0, 1, 2] → r.sample 4 .packets [(0, 1), (1, 10), (2, 5)] = some 7 →
      ∃ r', Reg.replies name r (List.replicate n rest) = some r' ∧
        r'.sample 4 .packets [(0, 1), (1, 10), (2, 5)] = some 7 := by
    intro n
    induction n with
    | zero => intro r _ h; exact ⟨r, rfl, h⟩
    | succ n ih =>
      intro r hn hs
      obtain ⟨r1, h1⟩ := (reply_known (name := name) (r := r) (fs := rest)).2 (by decide)
      have hnm : AllNamed name r rest := by
        intro f hf tbl ht k hk
        obtain rfl : f = ⟨9, [(0, 1), (1, 10)], 9, 900⟩ := by simpa [rest] using hf
        obtain rfl : 4 = tbl := by simpa [name] using ht
        rw [hn]
        simp [Dict.keys] at hk ⊢
        omega
      have hk := reply_keeps h1 hnm 4 .packets [(0, 1), (1, 10), (2, 5)]
      have hs1 : r1.sample 4 .packets [(0, 1), (1, 10), (2, 5)] = some 7 := by
        rw [hk.2, hs]
        intro f hf _
        obtain rfl : f = ⟨9, [(0, 1), (1, 10)], 9, 900⟩ := by simpa [rest] using hf
        rw [hn]; decide
      obtain ⟨r2, h2, h3⟩ := ih r1 (by rw [hk.1, hn]) hs1
      refine ⟨r2, ?_, h3⟩
      rw [List.replicate_succ]
      simp only [Reg.replies, h1]
      exact h2
  exact key n _ (by decide +kernel) (by decide +kernel)

/-- A flow in a table that is not one of the pipeline's (another program's, or left by another version) ends Gauge. -/
theorem unknown_table_fatal_defect : Reg.empty.reply name [⟨9, [(0, 1)], 1, 1⟩, ⟨77, [(0, 1)], 1, 1⟩] = none := by decide

/-! ## Dumps -/

/-- `dump_fresh`: three parts of a reply that arrive in one second. -/
example : let f1 := dumpName [] 1 1000
    let f2 := dumpName [f1] 1 1000
    (f1, f2, dumpName [f2, f1] 1 1000) = (⟨1, 1000, none⟩, ⟨1, 1000, some 1⟩, ⟨1, 1000, some 2⟩) := by decide

end Faucet.Gauge.Ex
