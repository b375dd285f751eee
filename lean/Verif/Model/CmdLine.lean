import Verif.Model.Base
import Mathlib.Data.Real.Basic
/-!
# Model of the parsing of parameter assignments (`/repo/src/fastprof_utils/tools.py`)

Texts are lists of characters (`Str`); `List.splitOn` is Python's `str.split(c)` for a one-character separator.
Library functions are parameters: `re.match(var + '$', name)` on well-formed patterns, `float(text)` and
`int(text)` (`none`: they raise `ValueError`; `nan` and infinities are not modelled).
-/
namespace Verif
namespace Cmd

/-- A Python string. -/
abbrev Str := List Char

/-- The library functions used by the parsers. -/
structure Lib where
  /-- `re.match(var + '$', name) is not None` -/
  reMatch : Str → String → Bool
  /-- `float(text)` -/
  float : Str → Option ℝ
  /-- `int(text)` -/
  int : Str → Option Int

/-- The value of an assignment: a number, or (`check_val=False`) a text left for `process_values_spec`. -/
inductive Val where
  | num (v : ℝ)
  | text (s : Str)

/-- `[ a.replace(' ', '').split('=') for a in setvals.split(',') ]` (tools.py:41, 197, 247). -/
def fields (spec : Str) : List (List Str) :=
  (spec.splitOn ',').map fun a => (a.filter (· ≠ ' ')).splitOn '='

/-- `(var, val) = field`: `ValueError` unless there are two parts. -/
def unpack2 : List Str → Except PyErr (Str × Str)
  | [a, b] => .ok (a, b)
  | _ => .error .valueError

/-- What `process_setvals` needs of the model: the names of the POIs and NPs, and `model.nps[name].scaled_value`. -/
structure Names where
  pois : List String
  nps : List String
  scaled : String → ℝ → ℝ

/-- The optional arguments of `process_setvals` (tools.py:11-12). -/
structure Opts where
  match_pois : Bool := true
  match_nps : Bool := true
  check_val : Bool := true
  scale_nps : Bool := false

/-- `float_val if float_val is not None else val` (tools.py:63). -/
def rawVal (fv : Option ℝ) (val : Str) : Val := match fv with | some v => .num v | none => .text val

/-- The inner loop (tools.py:60-63): `float_val` is overwritten by its scaled value. -/
def assignLoop (M : Names) (o : Opts) (nps : List String) (val : Str) :
    List String → Option ℝ → Dict Val → Dict Val
  | [], _, d => d
  | p :: ps, fv, d =>
    let fv := if o.scale_nps && nps.contains p then fv.map (M.scaled p) else fv
    assignLoop M o nps val ps fv (d.set p (rawVal fv val))

/-- One round of the loop of `process_setvals` (tools.py:45-63). -/
def assignOne (L : Lib) (M : Names) (o : Opts) (d : Dict Val) (field : List Str) :
    Except PyErr (Dict Val) := do
  let (var, val) ← unpack2 field
  let pois := if o.match_pois then M.pois.filter (L.reMatch var) else []
  if o.match_pois ∧ pois = [] ∧ o.match_nps = false then throw .valueError
  let nps := if o.match_nps then M.nps.filter (L.reMatch var) else []
  if o.match_nps ∧ nps = [] ∧ o.match_pois = false then throw .valueError
  if pois ++ nps = [] then throw .valueError
  if o.check_val ∧ L.float val = none then throw .valueError
  return assignLoop M o nps val (pois ++ nps) (L.float val) d

/-- `process_setvals` (tools.py:11-64). -/
def processSetvals (L : Lib) (M : Names) (o : Opts) (setvals : Str) : Except PyErr (Dict Val) :=
  (fields setvals).foldlM (assignOne L M o) []

/-- `np.linspace(a, b, n, endpoint)`. -/
noncomputable def linspace (a b : ℝ) (n : Int) (endpoint : Bool) : Except PyErr (List ℝ) :=
  if n < 0 then .error .valueError
  else .ok ((List.range n.toNat).map fun (i : Nat) =>
    a + (i : ℝ) * ((b - a) / (if endpoint then (n : ℝ) - 1 else (n : ℝ))))

/-- The values of one `~`-separated block (tools.py:92-105).  `math` is not imported in the file: the `log` branch
raises `NameError`. -/
noncomputable def blockValues (L : Lib) : List Str → Except PyErr (List ℝ)
  | [x] => match L.float x with
    | some v => .ok [v]
    | none => .error .valueError
  | f0 :: f1 :: f2 :: rest =>
    match f2.getLast? with
    | none => .error .indexError
    | some c =>
      match L.int (if c = '+' then f2.dropLast else f2) with
      | none => .error .valueError
      | some n =>
        if rest = ["log".toList] then .error .nameError
        else match L.float f0, L.float f1 with
          | some a, some b => linspace a b n (c = '+')
          | _, _ => .error .valueError
  | _ => .error .indexError

/-- `process_values_spec` (tools.py:66-109): every exception becomes `ValueError`. -/
noncomputable def valuesSpec (L : Lib) (spec : Str) : Except PyErr (List ℝ) :=
  match ((spec.splitOn '~').mapM fun b => blockValues L (b.splitOn ':')) with
  | .ok l => .ok l.flatten
  | .error _ => .error .valueError

/-- The local variables of the inner loop of `process_setval_dicts` (tools.py:155-157). -/
structure ExpSt where
  expanded : Bool
  svds : List (Dict Val)
  new : Dict Val

/-- One round of the inner loop (tools.py:158-168). -/
noncomputable def expandStep (L : Lib) (s : ExpSt) (kv : String × Val) : Except PyErr ExpSt :=
  if s.expanded then .ok { s with svds := s.svds.map (fun d => d.set kv.1 kv.2) }
  else match kv.2 with
    | .num v => .ok { s with new := s.new.set kv.1 (.num v) }
    | .text t => do
      let vs ← valuesSpec L t
      return { s with expanded := true, svds := vs.map (fun v => s.new.set kv.1 (.num v)) }

/-- One round of the outer loop (tools.py:154-172). -/
noncomputable def expandDict (L : Lib) (acc : Bool × List (Dict Val)) (d : Dict Val) :
    Except PyErr (Bool × List (Dict Val)) := do
  let s ← d.foldlM (expandStep L) ⟨false, [], []⟩
  if s.expanded then return (true, acc.2 ++ s.svds) else return (acc.1, acc.2 ++ [s.new])

/-- `process_setval_dicts` (tools.py:151-174), with at most `fuel` recursive calls (`unmodelled` beyond; Python's
own limit is not modelled). -/
noncomputable def expandDicts (L : Lib) : Nat → List (Dict Val) → Except PyErr (List (Dict Val))
  | 0, _ => .error .unmodelled
  | fuel + 1, ds => do
    let r ← ds.foldlM (expandDict L) (false, [])
    if r.1 then expandDicts L fuel r.2 else return r.2

/-- `process_setval_list` (tools.py:112-148). -/
noncomputable def processSetvalList (L : Lib) (M : Names) (match_pois match_nps : Bool) (fuel : Nat)
    (spec : Str) : Except PyErr (List (Dict Val)) := do
  let ds ← (spec.splitOn '|').mapM (processSetvals L M ⟨match_pois, match_nps, false, false⟩)
  expandDicts L fuel ds

/-- The two bounds of a range: `splits*2` if there is only one part (tools.py:201-203). -/
def rangeParts (r : Str) : Except PyErr (Str × Str) :=
  match r.splitOn ':' with
  | [a] => .ok (a, a)
  | [a, b] => .ok (a, b)
  | _ => .error .valueError

/-- `for poi in matching_pois : model.pois[poi].min_value = v`, likewise for `max_value` (tools.py:211, 217). -/
def setOn (names : List String) (f : ModelPOI ℝ → ModelPOI ℝ) (pois : Dict (ModelPOI ℝ)) :
    Dict (ModelPOI ℝ) := pois.map fun kv => (kv.1, if names.contains kv.1 then f kv.2 else kv.2)

/-- One round of the loop of `process_setranges` (tools.py:198-217): the model after it, and the exception raised
in it if any.  The messages printed afterwards (218-222) are not modelled. -/
def setRange (L : Lib) (field : List Str) (pois : Dict (ModelPOI ℝ)) :
    Dict (ModelPOI ℝ) × Option PyErr :=
  match unpack2 field with
  | .error e => (pois, some e)
  | .ok (var, r) =>
    let sel := pois.keys.filter (L.reMatch var)
    if sel = [] then (pois, some .valueError)
    else match rangeParts r with
      | .error e => (pois, some e)
      | .ok (lo, hi) =>
        let step1 : Dict (ModelPOI ℝ) × Option PyErr :=
          if lo = [] then (pois, none)
          else match L.float lo with
            | none => (pois, some .valueError)
            | some v => (setOn sel (fun p => { p with min_value := some v }) pois, none)
        match step1 with
        | (q, some e) => (q, some e)
        | (q, none) =>
          if hi = [] then (q, none)
          else match L.float hi with
            | none => (q, some .valueError)
            | some v => (setOn sel (fun p => { p with max_value := some v }) q, none)

/-- The loop of `process_setranges`. -/
def setRangesLoop (L : Lib) : List (List Str) → Dict (ModelPOI ℝ) → Dict (ModelPOI ℝ) × Option PyErr
  | [], pois => (pois, none)
  | f :: fs, pois =>
    match setRange L f pois with
    | (q, some e) => (q, some e)
    | (q, none) => setRangesLoop L fs q

/-- `process_setranges` (tools.py:176-225): the POIs of the model afterwards, and whether `ValueError` is raised. -/
def processSetranges (L : Lib) (spec : Str) (pois : Dict (ModelPOI ℝ)) :
    Dict (ModelPOI ℝ) × Option PyErr :=
  match setRangesLoop L (fields spec) pois with
  | (q, none) => (q, none)
  | (q, some _) => (q, some .valueError)

/-- `float_x = None; if x != '' : float_x = float(x)` (tools.py:254-271). -/
def optFloat (L : Lib) (t : Str) : Except PyErr (Option ℝ) :=
  if t = [] then .ok none
  else match L.float t with
    | some v => .ok (some v)
    | none => .error .valueError

/-- One round of the loop of `process_pois` (tools.py:248-272). -/
def poiOf (L : Lib) (known : List String) (check : Bool) (field : List Str) :
    Except PyErr (ModelPOI ℝ) := do
  let (var, r) ← unpack2 field
  if check ∧ String.ofList var ∉ known then throw .valueError
  let (v, lo, hi) ← match r.splitOn ':' with
    | [a, b] => (.ok ([], a, b) : Except PyErr (Str × Str × Str))
    | [a, b, c] => .ok (a, b, c)
    | _ => .error .valueError
  let v ← optFloat L v
  let lo ← optFloat L lo
  let hi ← optFloat L hi
  return { name := some (String.ofList var), min_value := lo, max_value := hi, initial_value := v }

/-- `process_pois` (tools.py:227-275). -/
def processPois (L : Lib) (known : List String) (check : Bool) (spec : Str) :
    Except PyErr (List (ModelPOI ℝ)) :=
  match (fields spec).mapM (poiOf L known check) with
  | .ok l => .ok l
  | .error _ => .error .valueError

end Cmd
end Verif
