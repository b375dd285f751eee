import Verif.Model.CmdLine
import Verif.Model.Markup
import Mathlib.Analysis.SpecialFunctions.Pow.Real
/-!
# Model of the scripts `iterate.py` and `collect_results.py` (`/repo/src/fastprof_utils/`)
-/
namespace Verif
namespace Collect
open Cmd

/-- A value of the scanned variable: a floating-point number, an integer (`math.floor`), or a text of the command line. -/
inductive Pos where
  | flt (x : ℝ)
  | int (n : ℤ)
  | text (s : Str)

/-- `str(pos)`; the text of a floating-point number is a parameter. -/
def Pos.str (fmt : ℝ → Str) : Pos → Str
  | .flt x => fmt x
  | .int n => (toString n).toList
  | .text s => s

/-- `float(text)`, `int(text)`: `ValueError` if this is not possible.  Infinite and undefined values are not modelled. -/
def orValueError {α : Type} : Option α → Except PyErr α
  | some x => .ok x
  | none => .error .valueError

/-- `math.log(x)` (iterate.py:40). -/
noncomputable def mathLog (x : ℝ) : Except PyErr ℝ :=
  open Classical in if 0 < x then .ok (Real.log x) else .error .valueError

/-- The division of two floating-point numbers of Python (iterate.py:40). -/
noncomputable def pyDiv (a b : ℝ) : Except PyErr ℝ := open Classical in if b = 0 then .error .zeroDivision else .ok (a / b)

/-- `np.logspace(1, e, n, True, base)` (iterate.py:40). -/
noncomputable def logspace (base e : ℝ) (n : ℤ) : Except PyErr (List ℝ) := do
  let l ← linspace 1 e n true
  return l.map fun x => base ^ x

/-- `np.linspace(float(pos_spec[0]), float(pos_spec[1]), int(pos_spec[2]))` (iterate.py:35, 37; collect_results.py:92, 94). -/
noncomputable def linPos (L : Lib) (f0 f1 f2 : Str) : Except PyErr (List ℝ) := do
  let a ← orValueError (L.float f0)
  let b ← orValueError (L.float f1)
  let n ← orValueError (L.int f2)
  linspace a b n true

/-- `np.logspace(1, math.log(float(pos_spec[1]))/math.log(float(pos_spec[0])), int(pos_spec[2]) + 1, True, float(pos_spec[0]))`
(iterate.py:40, 42; collect_results.py:97, 99). -/
noncomputable def logPos (L : Lib) (f0 f1 f2 : Str) : Except PyErr (List ℝ) := do
  let b ← orValueError (L.float f1)
  let lb ← mathLog b
  let a ← orValueError (L.float f0)
  let la ← mathLog a
  let e ← pyDiv lb la
  let n ← orValueError (L.int f2)
  logspace a e (n + 1)

/-- `math.floor((positions[i] + positions[i+1] + 1)/2) for i in range(0, len(positions) - 1)` (iterate.py:43). -/
noncomputable def midFloor : List ℝ → List ℤ
  | x :: y :: l => ⌊(x + y + 1) / 2⌋ :: midFloor (y :: l)
  | _ => []

/-- The branches of lines 34-45. -/
noncomputable def positionsOf (L : Lib) (spec : Str) : Except PyErr (List Pos) :=
  match spec.splitOn ':' with
  | [f0, f1, f2] => do return (← linPos L f0 f1 f2).map .flt
  | [f0, f1, f2, f3] =>
    if f3 = "int".toList then do return (← linPos L f0 f1 f2).map fun x => .int ⌊x⌋
    else if f3 = "log".toList then do return (← logPos L f0 f1 f2).map .flt
    else if f3 = "logint".toList then do return (midFloor (← logPos L f0 f1 f2)).map .int
    else .ok ((spec.splitOn ',').map .text)
  | _ => .ok ((spec.splitOn ',').map .text)

/-- The positions of `iterate.py` (32-48) and of `collect_results.py` (89-105): every exception becomes `ValueError`. -/
noncomputable def positions (L : Lib) (spec : Str) : Except PyErr (List Pos) :=
  match positionsOf L spec with
  | .ok l => .ok l
  | .error _ => .error .valueError

/-- `s.replace(c, by)` for a single character. -/
def replaceChar (c : Char) (by_ s : Str) : Str := s.flatMap fun x => if x = c then by_ else [x]

/-- `pattern.replace('*', str_pos).replace('%', str_pos)` (iterate.py:54; collect_results.py:127). -/
def subst (pattern s : Str) : Str := replaceChar '%' s (replaceChar '*' s pattern)

/-- `.replace('\\n', '\n')` (iterate.py:54): a backslash followed by `n` becomes a line break. -/
def unescape : Str → Str
  | '\\' :: 'n' :: s => '\n' :: unescape s
  | c :: s => c :: unescape s
  | [] => []

/-- `iterate.run` (iterate.py:25-61): the text that is written or printed. -/
noncomputable def iterate (L : Lib) (fmt : ℝ → Str) (spec pattern : Str) : Except PyErr Str := do
  let ps ← positions L spec
  return ps.flatMap fun p => unescape (subst pattern (p.str fmt)) ++ ['\n']

/-! ## `collect_results.py` -/

/-- The options of `collect_results.py` (65-77) that matter for the output file. -/
structure Opts where
  positions : Str
  pattern : Str
  key : Str
  bands : Option ℤ := none
  errors : Bool := false

/-- `'%+d' % band` (collect_results.py:145). -/
def plusD (i : ℤ) : String := (if i < 0 then "-" else "+") ++ toString i.natAbs

/-- `key + '_expected_band_%+d' % band` (collect_results.py:145). -/
def bandKey (key : String) (i : ℤ) : String := key ++ "_expected_band_" ++ plusD i

/-- `np.linspace(-options.bands, options.bands, 2*options.bands + 1)` (collect_results.py:122, 144). -/
def orders (b : ℤ) : Except PyErr (List ℤ) :=
  if b < 0 then .error .valueError else .ok ((List.range (2 * b.toNat + 1)).map fun k : ℕ => (k : ℤ) - b)

/-- `float(res)`. -/
def toFloat (L : Lib) : Markup.V → Except PyErr ℝ
  | .num x => .ok x
  | .str s => orValueError (L.float s.toList)
  | _ => .error .typeError

/-- `res = jdict[key]`, refused if `res == None` (collect_results.py:145-146, 156-159). -/
def present (D : Dict Markup.V) (key : String) : Option Markup.V :=
  match D.get? key with
  | some .none => none
  | r => r

/-- A collected result: a number, or a number with its uncertainties. -/
inductive Res where
  | one (x : ℝ)
  | three (x up dn : ℝ)

/-- What is collected for a key: `bands[key]` (in the order of the bands), `good_pos_bands[key]`, `results[key]`, `good_pos[key]`. -/
structure KeySt where
  bands : List (List ℝ)
  posBands : List Pos
  results : List Res
  pos : List Pos

/-- The appending loop (collect_results.py:147-149): it stops at a value that `float` refuses. -/
def appendBands (L : Lib) : List Markup.V → List (List ℝ) → List (List ℝ) × Bool
  | v :: vs, b :: bs =>
    match toFloat L v with
    | .ok x => ((b ++ [x]) :: (appendBands L vs bs).1, (appendBands L vs bs).2)
    | .error _ => (b :: bs, false)
  | _, bs => (bs, true)

/-- The bands of a file (collect_results.py:142-154), with the list of the band keys, or `none` if bands are not collected; the
Boolean tells whether the loop goes on with the same file. -/
def bandStep (L : Lib) (keys : Option (List String)) (D : Dict Markup.V) (p : Pos) (s : KeySt) : KeySt × Bool :=
  match keys with
  | none => (s, true)
  | some ks =>
    match ks.mapM (present D) with
    | none => (s, false)
    | some vs =>
      if (appendBands L vs s.bands).2 then
        ({ s with bands := (appendBands L vs s.bands).1, posBands := s.posBands ++ [p] }, true)
      else ({ s with bands := (appendBands L vs s.bands).1 }, false)

/-- The result and its uncertainties (collect_results.py:155-180); `none`: the position is skipped. -/
def resStep (L : Lib) (errors : Bool) (key : String) (D : Dict Markup.V) : Except PyErr (Option Res) :=
  match present D key with
  | none => .ok none
  | some v =>
    if errors then
      match present D (key ++ "_up"), present D (key ++ "_dn") with
      | some u, some d => do
        let x ← toFloat L v
        let xu ← toFloat L u
        let xd ← toFloat L d
        return some (.three x xu xd)
      | _, _ => .ok none
    else do
      let x ← toFloat L v
      return some (.one x)

/-- The end of the body of the loop (collect_results.py:155-181). -/
def addRes (L : Lib) (errors : Bool) (key : String) (D : Dict Markup.V) (p : Pos) (s : KeySt) : Except PyErr KeySt := do
  match ← resStep L errors key D with
  | none => return s
  | some r => return { s with results := s.results ++ [r], pos := s.pos ++ [p] }

/-- The body of the loop over the positions (collect_results.py:127-181).  `files` gives the decoded content of the files that can be
read and decoded as a dictionary. -/
def posStep (L : Lib) (fmt : ℝ → Str) (files : Str → Option (Dict Markup.V)) (o : Opts) (keys : Option (List String)) (key : String)
    (s : KeySt) (p : Pos) : Except PyErr KeySt :=
  match files (subst o.pattern (p.str fmt)) with
  | none => .ok s
  | some D =>
    match bandStep L keys D p s with
    | (s', true) => addRes L o.errors key D p s'
    | (s', false) => .ok s'

/-- `options.bands and k == 0` (collect_results.py:119, 142): the keys of the bands. -/
def bandKeys (o : Opts) (key : String) (k : ℕ) : Except PyErr (Option (List String)) :=
  match o.bands with
  | none => .ok none
  | some b =>
    if b = 0 ∨ k ≠ 0 then .ok none
    else do
      let is ← orders b
      return some (is.map (bandKey key))

/-- What is written for a key (collect_results.py:185-189). -/
structure KeyOut where
  positions : List Pos
  results : List Res
  bands : Option (List (List ℝ))

/-- The round of the loop over the keys (collect_results.py:118-181), and what is written. -/
def keyRun (L : Lib) (fmt : ℝ → Str) (files : Str → Option (Dict Markup.V)) (o : Opts) (ps : List Pos) (key : String) (k : ℕ) :
    Except PyErr KeyOut := do
  let ks ← bandKeys o key k
  let s ← ps.foldlM (posStep L fmt files o ks key) ⟨(ks.getD []).map (fun _ => []), [], [], []⟩
  return ⟨s.pos, s.results, ks.map fun _ => s.bands⟩

/-- `collect_results.run` (collect_results.py:82-195): the content of the output file.  `key.split(',')` is the list of the keys;
the entry of a repeated key is the one of its last occurrence.  Messages, the ROOT output and the plots are not modelled. -/
noncomputable def collect (L : Lib) (fmt : ℝ → Str) (files : Str → Option (Dict Markup.V)) (o : Opts) : Except PyErr (Dict KeyOut) := do
  let ps ← positions L o.positions
  let outs ← ((o.key.splitOn ',').map String.ofList).zipIdx.mapM fun kk => do
    return (kk.1, ← keyRun L fmt files o ps kk.1 kk.2)
  return Dict.setAll [] outs

end Collect
end Verif
