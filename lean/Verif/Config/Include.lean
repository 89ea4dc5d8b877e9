import Verif.Base.Dict

/-!
# Loading configuration files and their includes

`dp_include` in `faucet/config_parser_util.py` 99-181.

Simplifications. A file's content stands for its text and for its SHA-256 hash (no collisions). `Env.parse` stands for the
YAML library, `Env.resolve` for `dp_config_path` (89-96). The sections of `top_confs` are kept in one dictionary keyed by
section and name. `new_config_hashes` and `new_top_confs` are copies of the incoming dictionaries with additions, so updating
the incoming dictionaries with them at the end gives the same dictionaries; the model returns them. Log messages are not
modelled except `trace`, the sequence of files loaded (`true`) and of optional files skipped (`false`).
-/

namespace Faucet.Config

open Faucet

abbrev Path := Nat
abbrev Content := Nat

/-- What is read of a configuration file that is a non-empty mapping. -/
structure Doc where
  /-- `version` is 2 or missing (`faucet/config_parser.py` 47-48; only looked at in the top file) -/
  version2 : Bool := true
  /-- it has unknown top level keys -/
  unknown : Bool := false
  /-- some section is not a mapping -/
  badSection : Bool := false
  /-- (section, name), value -/
  settings : List ((Nat × Nat) × Nat) := []
  /-- names in `include`; `none` if it is not a list -/
  includes : Option (List Nat) := some []
  /-- names in `include-optional` -/
  optIncludes : Option (List Nat) := some []
deriving DecidableEq, Repr

/-- Result of reading a file: `bad` for an unreadable, malformed or empty one, `other` for valid YAML that is not a mapping. -/
inductive Yaml where
  | bad
  | other
  | map (d : Doc)
deriving DecidableEq, Repr

structure Env where
  parse : Content → Yaml
  /-- `resolve parent name` -/
  resolve : Path → Nat → Path

/-- The dictionaries `dp_include` works on: `config_hashes`, `config_contents`, `top_confs`. -/
structure St where
  hashes : Dict Path (Option Content) := []
  contents : Dict Path Content := []
  confs : Dict (Nat × Nat) Nat := []
  trace : List (Path × Bool) := []
deriving DecidableEq, Repr

/-- Outcome of `dp_include`: `deep` if the recursion limit of the model is reached, `raised` for an exception, otherwise the
dictionaries afterwards and the returned value. -/
inductive Res where
  | deep
  | raised
  | done (s : St) (ok : Bool)
deriving DecidableEq, Repr

/-- `dict.update` -/
def update {κ α : Type} [DecidableEq κ] (d : Dict κ α) (l : List (κ × α)) : Dict κ α := l.foldl (fun d e => d.set e.1 e.2) d

/-- An optional file is skipped: `faucet/config_parser_util.py` 172-173. -/
def St.skip (s : St) (q : Path) : St := { s with hashes := s.hashes.set q none, trace := s.trace ++ [(q, false)] }

/-- The loop over the files of one directive, 152-173. `known` is the incoming `config_hashes`, `rec` the recursive call,
`s` the new dictionaries. -/
def incItems (rec : St → Path → Res) (known : Dict Path (Option Content)) (required : Bool) : List Path → St → Res
  | [], s => .done s true
  | q :: qs, s =>
    if known.has q then .done s false
    else match rec s q with
      | .deep => .deep
      | .raised => .raised
      | .done s' true => incItems rec known required qs s'
      | .done s' false => if required then .done s' false else incItems rec known required qs (s'.skip q)

/-- The new dictionaries after the file's own settings, 124-141. -/
def St.enter (s : St) (p : Path) (c : Content) (d : Doc) : St :=
  { s with hashes := s.hashes.set p (some c), confs := update s.confs d.settings, trace := s.trace ++ [(p, true)] }

/-- `return False`: the incoming dictionaries are as they were, except `config_contents`, which the nested calls write to
directly (164-166 pass `config_contents`, not the copy). -/
def St.fail (s : St) (later : St) : Res := .done { s with contents := later.contents } false

/-- The processing of a file's directives, 143-181. -/
def incDoc (rec : St → Path → Res) (resolve : Path → Nat → Path) (s : St) (p : Path) (c : Content) (d : Doc) : Res :=
  match d.includes with
  | none => s.fail s
  | some is =>
    match incItems rec s.hashes true (is.map (resolve p)) (s.enter p c d) with
    | .deep => .deep
    | .raised => .raised
    | .done s1 false => s.fail s1
    | .done s1 true =>
      match d.optIncludes with
      | none => s.fail s1
      | some os =>
        match incItems rec s.hashes false (os.map (resolve p)) s1 with
        | .deep => .deep
        | .raised => .raised
        | .done s2 false => s.fail s2
        | .done s2 true => .done { s2 with contents := s2.contents.set p c } true

/-- `dp_include`, 99-181. An included file that is YAML but not a mapping makes `conf.keys()` raise (118). -/
def dpInclude (e : Env) (fs : Dict Path Content) : Nat → St → Path → Res
  | 0, _, _ => .deep
  | n + 1, s, p =>
    match fs.get? p with
    | none => .done s false
    | some c =>
      match e.parse c with
      | .bad => .done s false
      | .other => .raised
      | .map d =>
        if d.unknown || d.badSection then .done s false
        else incDoc (dpInclude e fs n) e.resolve s p c d

/-- Returned value, if the call returned. -/
def Res.ok : Res → Option Bool
  | .done _ ok => some ok
  | _ => none

/-- Dictionaries after the call, if it returned. -/
def Res.st : Res → St
  | .done s _ => s
  | _ => {}

/-- The call for the top file, `faucet/config_parser.py` 289-300, with enough depth (`include_terminates`). -/
def loadTop (e : Env) (fs : Dict Path Content) (p : Path) : Res := dpInclude e fs (2 * fs.length + 2) {} p

end Faucet.Config
