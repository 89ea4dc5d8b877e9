import Verif.Config.Include

/-!
# Watching, loading and applying the configuration

`faucet/valves_manager.py` 41-72 (`ConfigWatcher`), 228-362 and 440-458 (`ValvesManager`), `config_changed`
(`faucet/config_parser_util.py` 184-211), `stat_config_files` (`faucet/valve_util.py` 187-200), `dp_parser`
(`faucet/config_parser.py` 37-55, 289-307), the poll loop and the reload event (`faucet/valve_ryuapp.py` 134-140,
`faucet/faucet.py` 202-209).

Simplifications. A switch's configuration is a number. `MEnv.validate` stands for `dp_preparsed_parser` (with the stack root
held fixed), `MEnv.supported` for `valve_factory` and `MEnv.cold` for the decision of `_apply_config_changes` to restart cold.
An exception other than `InvalidConfigError` ends the controller: the operations return `none`. `pushed`, `loads` and `trace`
are not in the code: they record the configuration last sent to each switch, the number of loads and the files of the last
successful load. The stat dictionaries are compared with their order.
-/

namespace Faucet.Config

open Faucet

structure MEnv extends Env where
  /-- `none`: `InvalidConfigError` -/
  validate : Dict (Nat × Nat) Nat → Option (List (Nat × Nat))
  supported : Nat → Bool
  /-- `cold old new` -/
  cold : Nat → Nat → Bool
  /-- the configuration file given on the command line -/
  file : Path
  autoRevert : Bool := false

structure Valve where
  cfg : Nat
  running : Bool := false
deriving DecidableEq, Repr

structure Mgr where
  /-- the disk: content and stat of each file -/
  fs : Dict Path (Content × Nat) := []
  watchFile : Option Path := none
  watchHashes : Option (Dict Path (Option Content)) := none
  stats : Option (List (Path × Nat)) := none
  valves : Dict Nat Valve := []
  applied : Dict Nat Bool := []
  /-- `faucet_config_applied` as numerator and denominator -/
  metric : Nat × Nat := (0, 0)
  /-- `faucet_config_load_error` -/
  loadError : Bool := false
  lastGood : Dict Path Content := []
  pushed : Dict Nat Nat := []
  loads : Nat := 0
  trace : List (Path × Bool) := []
deriving DecidableEq, Repr

/-- The contents on the disk. -/
def Mgr.files (m : Mgr) : Dict Path Content := m.fs.map (fun e => (e.1, e.2.1))

/-- One file of the loop in `config_changed`, `faucet/config_parser_util.py` 197-210. -/
def fileChanged (now : Option Content) (hash : Option Content) : Bool :=
  match hash, now with
  | none, some _ => true
  | some _, none => true
  | some h, some c => c ≠ h
  | none, none => false

/-- `config_changed`, 184-211. -/
def configChanged (file : Option Path) (newFile : Path) (hashes : Option (Dict Path (Option Content)))
    (fs : Dict Path Content) : Bool :=
  if file ≠ some newFile then true
  else match hashes with
    | none => false
    | some h => h.any (fun e => fileChanged (fs.get? e.1) e.2)

/-- `stat_config_files`, `faucet/valve_util.py` 187-200. -/
def statFiles (h : Dict Path (Option Content)) (fs : Dict Path (Content × Nat)) : List (Path × Nat) :=
  h.filterMap (fun e => (fs.get? e.1).map (fun f => (e.1, f.2)))

/-- `files_changed`, `faucet/valves_manager.py` 47-61: the answer, with the new stats. Called with a configuration file. -/
def Mgr.filesChanged (m : Mgr) : Bool × Option (List (Path × Nat)) :=
  match m.watchHashes with
  | none => (false, m.stats)
  | some [] => (false, m.stats)
  | some h =>
    let new := statFiles h m.fs
    (match m.stats, m.watchFile with
      | none, _ => false
      | some [], _ => false
      | some old, some file => if new = old then configChanged m.watchFile file m.watchHashes m.files else true
      | some old, none => if new = old then false else true, some new)

/-- Outcome of `dp_parser`. -/
inductive Parsed where
  | raised
  | invalid
  | valid (s : St) (dps : List (Nat × Nat))
deriving DecidableEq, Repr

/-- The part of `dp_parser` after the top file was found to be a mapping of version 2, `faucet/config_parser.py` 289-307. -/
def parseDoc (e : MEnv) (fs : Dict Path Content) (p : Path) : Parsed :=
  match loadTop e.toEnv fs p with
  | .deep => .raised
  | .raised => .raised
  | .done _ false => .invalid
  | .done s true =>
    match e.validate s.confs with
    | none => .invalid
    | some dps => .valid s dps

/-- `dp_parser`, `faucet/config_parser.py` 37-55. -/
def parseConfigs (e : MEnv) (fs : Dict Path Content) (p : Path) : Parsed :=
  match fs.get? p with
  | none => .invalid
  | some c =>
    match e.parse c with
    | .bad => .invalid
    | .other => .invalid
    | .map d => if d.version2 then parseDoc e fs p else .invalid

/-- `update_config_applied`'s metric, `faucet/valves_manager.py` 447-452. -/
def appliedMetric (valves : Dict Nat Valve) (applied : Dict Nat Bool) : Nat × Nat :=
  ((valves.keys.filter (fun id => applied.get? id = some true)).length, valves.length)

/-- `revert_config`, 228-243; `stamp` is the stat of the rewritten files. Write errors are not modelled. -/
def revert (fs : Dict Path (Content × Nat)) (good : Dict Path Content) (stamp : Nat) : Dict Path (Content × Nat) :=
  good.foldl (fun fs e => fs.set e.1 (e.2, stamp)) fs

/-- One switch of the new configuration in `_apply_configs`, 304-319, on valves, `sent` and `pushed`. A cold restart sends
nothing and disconnects the switch (`send_flows`, `faucet/valve.py` 1838-1855). -/
def applyDp (e : MEnv) (st : Dict Nat Valve × Dict Nat Bool × Dict Nat Nat) (dp : Nat × Nat) :
    Dict Nat Valve × Dict Nat Bool × Dict Nat Nat :=
  match st.1.get? dp.1 with
  | some v =>
    let up := v.running && !e.cold v.cfg dp.2
    (st.1.set dp.1 ⟨dp.2, up⟩, st.2.1.set dp.1 up, if up then st.2.2.set dp.1 dp.2 else st.2.2)
  | none => if e.supported dp.2 then (st.1.set dp.1 { cfg := dp.2 }, st.2) else st

/-- `_apply_configs` for a valid configuration, 297-326. -/
def Mgr.apply (e : MEnv) (m : Mgr) (dps : List (Nat × Nat)) : Mgr :=
  let r := dps.foldl (applyDp e) (m.valves, [], m.pushed)
  let valves := r.1.filter (fun v => dps.any (fun d => d.1 == v.1))
  { m with valves := valves, applied := r.2.1, pushed := r.2.2, metric := appliedMetric valves r.2.1 }

/-- A load: `parse_configs` and `_apply_configs`, 245-281 and 297-326. -/
def Mgr.load (e : MEnv) (m : Mgr) (stamp : Nat) : Option Mgr :=
  match parseConfigs e m.files e.file with
  | .raised => none
  | .invalid => some { m with
      fs := if e.autoRevert then revert m.fs m.lastGood stamp else m.fs, watchFile := some e.file,
      watchHashes := some [(e.file, none)], loadError := true, applied := [], metric := appliedMetric m.valves [],
      loads := m.loads + 1 }
  | .valid s dps => some ({ m with
      watchFile := some e.file, watchHashes := some s.hashes, lastGood := s.contents, loadError := false, loads := m.loads + 1,
      trace := s.trace }.apply e dps)

/-- `request_reload_configs`, 344-362. -/
def Mgr.reload (e : MEnv) (m : Mgr) (stamp : Nat) : Option Mgr :=
  if configChanged m.watchFile e.file m.watchHashes m.files then m.load e stamp
  else some { m with loadError := false }

/-- One turn of the poll loop with the reload it asks for. -/
def Mgr.poll (e : MEnv) (m : Mgr) (stamp : Nat) : Option Mgr :=
  let r := m.filesChanged
  if r.1 then { m with stats := r.2 }.reload e stamp else some { m with stats := r.2 }

/-- `datapath_connect`, 454-458: the switch is sent its configuration. -/
def Mgr.connect (m : Mgr) (id : Nat) : Mgr :=
  match m.valves.get? id with
  | none => m
  | some v =>
    { m with valves := m.valves.set id { v with running := true }, applied := m.applied.set id true,
             metric := appliedMetric m.valves (m.applied.set id true), pushed := m.pushed.set id v.cfg }

/-- `datapath_disconnect`. -/
def Mgr.disconnect (m : Mgr) (id : Nat) : Mgr :=
  match m.valves.get? id with
  | none => m
  | some v => { m with valves := m.valves.set id { v with running := false } }

inductive MOp where
  /-- someone writes or deletes a file -/
  | edit (p : Path) (f : Option (Content × Nat))
  /-- reload requested by signal, or at start -/
  | reload (stamp : Nat)
  | poll (stamp : Nat)
  | connect (id : Nat)
  | disconnect (id : Nat)
deriving DecidableEq, Repr

def Mgr.step (e : MEnv) (m : Mgr) : MOp → Option Mgr
  | .edit p none => some { m with fs := m.fs.del p }
  | .edit p (some f) => some { m with fs := m.fs.set p f }
  | .reload stamp => m.reload e stamp
  | .poll stamp => m.poll e stamp
  | .connect id => some (m.connect id)
  | .disconnect id => some (m.disconnect id)

/-- A history; `none` if the controller ends with an exception. -/
def Mgr.run (e : MEnv) : Mgr → List MOp → Option Mgr
  | m, [] => some m
  | m, op :: ops => match m.step e op with
    | none => none
    | some m' => m'.run e ops

end Faucet.Config
