import Mathlib.Data.List.Dedup

/-!
# Interface ranges

Models `_dp_add_ports` with `_map_port_num_to_port` and `_parse_port_ranges`
(/repo/faucet/config_parser.py 102-171).
-/

namespace Faucet.Ranges

/-! ## Text -/

/-- A character of a range expression.  `\d` also matches digits of other scripts, which are left
out here. -/
inductive Ch where
  | dig (n : Fin 10)
  | dash
  | other (n : Nat)
  deriving DecidableEq, Repr

abbrev Text := List Ch

/-- `\d`. -/
def Ch.isDigit : Ch → Bool
  | .dig _ => true
  | _ => false

/-- The digit's value. -/
def Ch.val : Ch → Nat
  | .dig n => n.val
  | _ => 0

/-- `int(text)` for digits. -/
def toNat (ds : Text) : Nat := ds.foldl (fun a c => 10 * a + c.val) 0

/-- `\d+` at the start of the text: the match and what follows.  Greedy. -/
def matchNum (t : Text) : Option (Text × Text) :=
  let ds := t.takeWhile Ch.isDigit
  if ds.isEmpty then none else some (ds, t.dropWhile Ch.isDigit)

/-- `\d+-\d+` at the start of the text.  Giving back digits of the first `\d+` cannot help, as what
follows would be a digit. -/
def matchRange (t : Text) : Option ((Text × Text) × Text) :=
  match matchNum t with
  | some (a, .dash :: r) =>
    match matchNum r with
    | some (b, r') => some ((a, b), r')
    | none => none
  | _ => none

/-- `re.findall`: the matches from left to right, none overlapping another.  The number bounds the
length of the text. -/
def scan {α : Type} (m : Text → Option (α × Text)) : Nat → Text → List α
  | 0, _ => []
  | _ + 1, [] => []
  | n + 1, c :: t =>
    match m (c :: t) with
    | some (a, r) => a :: scan m n r
    | none => scan m n t

def findAll {α : Type} (m : Text → Option (α × Text)) (t : Text) : List α := scan m t.length t

/-- `re.sub(pattern, "", text)` for a pattern without special characters: every occurrence is
removed, from left to right.  Not for an empty pattern. -/
def cut (pat : Text) : Nat → Text → Text
  | 0, t => t
  | _ + 1, [] => []
  | n + 1, c :: t =>
    if pat.isPrefixOf (c :: t) then cut pat n ((c :: t).drop pat.length) else c :: cut pat n t

def remove (pat t : Text) : Text := cut pat t.length t

/-- The text of a range. -/
def rangeText (r : Text × Text) : Text := r.1 ++ .dash :: r.2

/-- The numbers from `a` to `b`. -/
def span (a b : Nat) : List Nat := (List.range (b + 1 - a)).map (a + ·)

/-- One range expression, config_parser.py 137-152.  `none`: the configuration is rejected. -/
def parseRange (t : Text) : Option (List Nat) :=
  let rs := findAll matchRange t
  if rs.any (fun r => decide (toNat r.1 ≥ toNat r.2)) then none
  else
    let rest := rs.foldl (fun t r => remove (rangeText r) t) t
    let nums := rs.flatMap (fun r => span (toNat r.1) (toNat r.2)) ++
      (findAll matchNum rest).map toNat
    if nums.isEmpty then none else some nums

/-! ## The ports -/

/-- The key of an interface: its number or a name. -/
inductive Key where
  | num (n : Nat)
  | name (s : Nat)
  deriving DecidableEq, Repr

/-- The section of an interface or range: its number, if given, and its other settings. -/
structure Conf where
  number : Option Key
  attrs : List (Nat × Nat)
  deriving DecidableEq, Repr

/-- A setting. -/
def Conf.get (c : Conf) (a : Nat) : Option Nat := c.attrs.lookup a

/-- `setdefault` for one setting. -/
def setDefault (c : Conf) (av : Nat × Nat) : Conf :=
  if (c.get av.1).isSome then c else ⟨c.number, c.attrs ++ [av]⟩

/-- `setdefault` for all settings of a range, config_parser.py 160-162. -/
def setDefaults (c : Conf) (r : Conf) : Conf := r.attrs.foldl setDefault c

/-- Ports by number, with the key of their section. -/
abbrev Ports := List (Key × Key × Conf)

/-- `d[k] = v`. -/
def put (d : Ports) (k : Key) (v : Key × Conf) : Ports :=
  if (d.lookup k).isSome then d.map (fun e => if e.1 = k then (k, v) else e) else d ++ [(k, v)]

/-- `_map_port_num_to_port`, config_parser.py 115-128. -/
def mapPorts (ifs : List (Key × Conf)) : Ports :=
  ifs.foldl (fun d kc => put d (kc.2.number.getD kc.1) (kc.1, kc.2)) []

/-- One port of a range, config_parser.py 158-164. -/
def addPort (r : Conf) (d : Ports) (n : Nat) : Ports :=
  match d.lookup (.num n) with
  | some (k, c) => put d (.num n) (k, setDefaults c r)
  | none => put d (.num n) (.num n, r)

/-- One range, config_parser.py 132-164.  The set of ports is gone through in some order without
duplicates; here in the order of the text. -/
def addRange (st : List Nat × Ports) (rc : Text × Conf) : Option (List Nat × Ports) :=
  match parseRange rc.1 with
  | none => none
  | some nums =>
    if nums.any (fun n => st.1.contains n) then none
    else some (st.1 ++ nums,
      nums.dedup.foldl (addPort ⟨none, rc.2.attrs⟩) st.2)

/-- `_dp_add_ports` up to the making of `Port` objects, config_parser.py 102-167. -/
def addPorts (ifs : List (Key × Conf)) (ranges : List (Text × Conf)) : Option Ports :=
  (ranges.foldlM addRange ([], mapPorts ifs)).map (·.2)

end Faucet.Ranges
