import Verif.Model.Sample
import Verif.Model.CmdLine
import Mathlib.Analysis.SpecialFunctions.Pow.Real
/-!
# Model of the yields and impacts of `convert_ws.py` (`/repo/src/fastprof_import/convert_ws.py`)

The workspace is the assignment of values to its variables, and for each bin of a channel the function that gives the expected
yield in terms of these values (`integral(channel)`, convert_ws.py:619-623).  `setVal` is taken to store its argument: ranges of the
variables are not modelled.  The bin integrals, fits and datasets of RooFit are not modelled.
-/
namespace Verif
namespace Conv

/-- The values of the variables of the workspace. -/
abbrev Vals := String → ℝ

/-- `par.setVal(x)`. -/
def setVal (p : String) (x : ℝ) (v : Vals) : Vals := Function.update v p x

/-! ## The samples of a channel -/

/-- A sample of a channel: `name` and the name of `normpar`. -/
structure WSSample where
  name : String
  normpar : Option String

/-- A channel: its samples, the position of the default sample, the number of bins and the expected yields. -/
structure WSChannel where
  samples : List WSSample
  dflt : ℕ
  nbins : ℕ
  expected : ℕ → Vals → ℝ

/-- The fields of an item of `--samples` (convert_ws.py:258-261). -/
def specNames (spec : Cmd.Str) : List String :=
  match (spec.splitOn ':').map String.ofList with
  | [a] => ["", "", a]
  | [a, b] => ["", a, b]
  | l => l

/-- `normpar_names` (convert_ws.py:253-261): the items of `--samples`, by channel and sample. -/
def normparNames (text : Cmd.Str) : List ((String × String) × String) :=
  (((text.filter fun c => decide (c ≠ ' ' ∧ c ≠ '\n')).splitOn ',').filter fun s => decide (s ≠ [])).foldl
    (fun l spec =>
      let f := specNames spec
      let key := (f.getD 0 "", f.getD 1 "")
      if l.any (fun e => decide (e.1 = key)) then l.map fun e => if e.1 = key then (key, f.getD 2 "") else e
      else l ++ [(key, f.getD 2 "")]) []

/-- The variable of the workspace with this name; `None` for an empty name (convert_ws.py:266-270). -/
def findVar (vars : List String) (p : String) : Except PyErr (Option String) :=
  if p = "" then .ok none else if p ∈ vars then .ok (some p) else .error .valueError

/-- `normpars` (convert_ws.py:265-272), as the list of its entries. -/
def normparList (vars : List String) (text : Cmd.Str) : Except PyErr (List ((String × String) × Option String)) :=
  (normparNames text).mapM fun e => do return (e.1, ← findVar vars e.2)

/-- The normalisation of a component of the PDF (convert_ws.py:538-551): a variable, or a function with these POIs. -/
inductive NormVar where
  | var (name : String)
  | func (pois : List String)

/-- `set_sample_normpar` (convert_ws.py:538-551). -/
def sampleNormpar : NormVar → Except PyErr String
  | .var p => .ok p
  | .func [p] => .ok p
  | .func _ => .error .valueError

/-- The PDF of a channel: a sum with its components, a Poisson, or something else. -/
inductive WSPdf where
  | add (comps : List (String × NormVar))
  | poisson
  | other

/-- The samples found in the PDF (convert_ws.py:593-610); `expected_yield` does not exist in the branch of the Poisson. -/
def pdfSamples : WSPdf → Except PyErr (List WSSample)
  | .add comps => comps.mapM fun c => do return ⟨c.1, some (← sampleNormpar c.2)⟩
  | .poisson => .error .nameError
  | .other => .error .typeError

/-- The default sample (convert_ws.py:591, 607, 611-616): the last one of this name, or a new one. -/
def withDefault (samples : List WSSample) (dflt : Option String) : List WSSample × ℕ :=
  match samples.zipIdx.filter fun e => decide (some e.1.name = dflt) with
  | [] => (samples ++ [⟨"unassigned_background", none⟩], samples.length)
  | l => (samples, (l.getLast?.map (·.2)).getD 0)

/-- The samples of `fill_channel` (convert_ws.py:575-617).  `user_samples.update(...)` (575) comes before the assignment of
`user_samples` (586): `UnboundLocalError`. -/
def channelSamples (normpars : List ((String × String) × Option String)) (chan : String) (dflt : Option String) (pdf : WSPdf) :
    Except PyErr (List WSSample × ℕ) :=
  if chan ∈ normpars.map (fun e => e.1.1) then .error .nameError
  else
    match normpars.filter fun e => decide (e.1.1 = "") with
    | [] => do return withDefault (← pdfSamples pdf) dflt
    | l => .ok (withDefault (l.map fun e => ⟨e.1.2, e.2⟩) dflt)

/-! ## Yields -/

/-- `set_normpars(channel, 0)` (convert_ws.py:635-638). -/
def zeroNorms (ss : List WSSample) (v : Vals) : Vals :=
  ss.foldl (fun v s => match s.normpar with | some p => setVal p 0 v | none => v) v

/-- `save_nominal(channel)` (convert_ws.py:630-633), `save_normpars(channel)` (625-628): the value of the normalisation of each
sample. -/
def normValues (ss : List WSSample) (v : Vals) : List (Option (String × ℝ)) := ss.map fun s => s.normpar.map fun p => (p, v p)

/-- `set_normpars(channel)` (convert_ws.py:635-638), with the saved values. -/
def setNorms (ns : List (Option (String × ℝ))) (v : Vals) : Vals :=
  ns.foldl (fun v n => match n with | some (p, x) => setVal p x v | none => v) v

/-- The loop of `fill_yields` (convert_ws.py:646-651). -/
noncomputable def oneByOne (Y : Vals → ℝ) (un : ℝ) : List (Option (String × ℝ)) → Vals → List ℝ × Vals
  | [], v => ([], v)
  | none :: ns, v => (0 :: (oneByOne Y un ns v).1, (oneByOne Y un ns v).2)
  | some (p, x) :: ns, v =>
    ((Y (setVal p x v) - un) :: (oneByOne Y un ns (setVal p 0 (setVal p x v))).1, (oneByOne Y un ns (setVal p 0 (setVal p x v))).2)

/-- `fill_yields` (convert_ws.py:642-653): the yields of the samples, and the values of the variables that it leaves. -/
noncomputable def fillYields (Y : Vals → ℝ) (ss : List WSSample) (dflt : ℕ) (v : Vals) : List ℝ × Vals :=
  let v0 := zeroNorms ss v
  let un := Y v0
  let r := oneByOne Y un (normValues ss v) v0
  (r.1.modify dflt (· + un), r.2)

/-- A nuisance parameter (convert_ws.py:342-356). -/
structure NuisPar where
  name : String
  nominal : ℝ
  error : ℝ

open Classical in
/-- `x ** y` for floating-point numbers.  A negative `x` and a `y` that is not an integer give a complex number: not modelled. -/
noncomputable def pyPow (x y : ℝ) : Except PyErr ℝ :=
  if 0 < x then .ok (x ^ y)
  else if x = 0 then (if y < 0 then .error .zeroDivision else if y = 0 then .ok 1 else .ok 0)
  else if y = ⌊y⌋ then .ok (x ^ ⌊y⌋) else .error .unmodelled

open Classical in
/-- The impact (convert_ws.py:716). -/
noncomputable def impactOf (eps yv yn : ℝ) : Except PyErr ℝ :=
  if yn = 0 then .ok 0
  else if eps = 0 then .error .zeroDivision
  else do
    let r ← pyPow (yv / yn) (1 / eps)
    return r - 1

/-- One variation (convert_ws.py:706-717): the impacts on the samples, and the values of the variables. -/
noncomputable def varStep (Y : Vals → ℝ) (ss : List WSSample) (dflt : ℕ) (norms : List (Option (String × ℝ))) (eps : ℝ) (par : NuisPar)
    (nom : List ℝ) (x : ℝ) (v : Vals) : Except PyErr (List ℝ × Vals) := do
  let v1 := setVal par.name (par.nominal + x * (par.error * eps)) (setNorms norms v)
  let r := fillYields Y ss dflt v1
  let imps ← (r.1.zip nom).mapM fun e => impactOf eps e.1 e.2
  return (imps, setVal par.name par.nominal r.2)

/-- The loop over the variations (convert_ws.py:705-721).  The dictionary of the variations is the list of its entries: they are
taken to have different texts. -/
noncomputable def parStep (Y : Vals → ℝ) (ss : List WSSample) (dflt : ℕ) (norms : List (Option (String × ℝ))) (eps : ℝ) (par : NuisPar)
    (nom : List ℝ) : List ℝ → Vals → Except PyErr (List (ℝ × List ℝ) × Vals)
  | [], v => .ok ([], v)
  | x :: xs, v => do
    let r ← varStep Y ss dflt norms eps par nom x v
    let rest ← parStep Y ss dflt norms eps par nom xs r.2
    return ((x, r.1) :: rest.1, rest.2)

/-- The loop over the nuisance parameters (convert_ws.py:700-721).  The validation data are not modelled. -/
noncomputable def parsStep (Y : Vals → ℝ) (ss : List WSSample) (dflt : ℕ) (norms : List (Option (String × ℝ))) (eps : ℝ)
    (nom : List ℝ) (vars : List ℝ) : List NuisPar → Vals → Except PyErr (List (List (ℝ × List ℝ)) × Vals)
  | [], v => .ok ([], v)
  | par :: ps, v => do
    let r ← parStep Y ss dflt norms eps par nom vars v
    let rest ← parsStep Y ss dflt norms eps nom vars ps r.2
    return (r.1 :: rest.1, rest.2)

/-- What is computed in a bin: the nominal yields of the samples, and for each NP and variation the impacts on the samples. -/
structure BinOut where
  nominal : List ℝ
  impacts : List (List (ℝ × List ℝ))

/-- The loop over the bins (convert_ws.py:677-731). -/
noncomputable def binsStep (trim : ℝ → ℝ) (c : WSChannel) (norms : List (Option (String × ℝ))) (eps : ℝ) (vars : List ℝ) (pars : List NuisPar) :
    List ℕ → Vals → Except PyErr (List BinOut × Vals)
  | [], v => .ok ([], v)
  | i :: is, v => do
    let r := fillYields (c.expected i) c.samples c.dflt (setNorms norms v)
    let ps ← parsStep (c.expected i) c.samples c.dflt norms eps r.1 vars pars r.2
    let rest ← binsStep trim c norms eps vars pars is ps.2
    return (⟨r.1.map trim, ps.1⟩ :: rest.1, rest.2)

/-- `fill_channel_yields` (convert_ws.py:657-733): the content of the bins, and the values of the variables that it leaves. -/
noncomputable def fillChannel (trim : ℝ → ℝ) (c : WSChannel) (eps : ℝ) (vars : List ℝ) (pars : List NuisPar) (v : Vals) :
    Except PyErr (List BinOut × Vals) := do
  let norms := normValues c.samples v
  let r ← binsStep trim c norms eps vars pars (List.range c.nbins) (zeroNorms c.samples v)
  return (r.1, setNorms norms r.2)

/-- `sample.nominal_yields` and `sample.impacts` of the sample at a position, with the nuisance parameters by name: the lists to which
each bin appends (convert_ws.py:695, 704, 717).  The texts `'%+g' % variation` stand for the numbers. -/
noncomputable def sampleOut (bins : List BinOut) (pars : List NuisPar) (s : ℕ) : List ℝ × Dict Impact :=
  (bins.map fun b => b.nominal.getD s 0,
    pars.zipIdx.map fun pk => (pk.1.name, .perBin (bins.map fun b => (b.impacts.getD pk.2 []).map fun e => (.num e.1, e.2.getD s 0))))

/-- `--variations` (convert_ws.py:360-367). -/
def variations (L : Cmd.Lib) (text : Cmd.Str) : Except PyErr (List ℝ) :=
  match (text.splitOn ',').mapM L.float with
  | some l => .ok (l.flatMap fun x => [x, -x])
  | none => .error .valueError

/-- The deviation of an NP (convert_ws.py:350-355). -/
noncomputable def parError (isFree : Bool) (err : ℝ) : Except PyErr ℝ :=
  open Classical in if isFree then (if err ≤ 0 then .error .valueError else .ok err) else .ok 1

/-! ## Packing -/

open Classical in
/-- `impact[key]`. -/
noncomputable def lookupKey : List (VarKey × ℝ) → VarKey → Except PyErr ℝ
  | [], _ => .error .keyError
  | (k, y) :: l, j => if k = j then .ok y else lookupKey l j

/-- `average` (convert_ws.py:761-763). -/
noncomputable def average (imps : List (List (VarKey × ℝ))) (keys : List VarKey) : Except PyErr (List (VarKey × ℝ)) :=
  keys.mapM fun k => do
    let ys ← imps.mapM fun d => lookupKey d k
    return (k, (ys.map fun y => y / (imps.length : ℝ)).sum)

open Classical in
/-- An entry deviates from the average (convert_ws.py:766). -/
noncomputable def deviates (tol : ℝ) (avg : List (VarKey × ℝ)) (e : VarKey × ℝ) : Bool :=
  match lookupKey avg e.1 with
  | .ok a => decide (|e.2 - a| > tol)
  | .error _ => false

open Classical in
/-- `pack` (convert_ws.py:757-782), with a number of digits; `none`: the impact is left out. -/
noncomputable def pack (tol : ℝ) (trim : ℝ → ℝ) (imps : List (List (VarKey × ℝ))) : Except PyErr (Option Impact) :=
  match imps with
  | [] => .ok (some (.perBin []))
  | d0 :: _ => do
    let avg ← average imps (d0.map Prod.fst)
    if imps.any fun d => d.any (deviates tol avg) then
      return some (.perBin (imps.map fun d => d.map fun e => if deviates tol avg e then (e.1, trim e.2) else e))
    else if (avg.map fun e => (e.1, trim e.2)).all fun e => decide (|e.2| ≤ tol) then return none
    else return some (.common (avg.map fun e => (e.1, trim e.2)))

end Conv
end Verif
