import Verif.Model.Expr
import Mathlib.Data.List.Sort
import Mathlib.Analysis.SpecialFunctions.Log.Basic
import Mathlib.LinearAlgebra.Matrix.NonsingularInverse
/-!
# Model of `/repo/src/fastprof/norms.py` and `/repo/src/fastprof/sample.py`

Numbers are reals.  Arrays over bins are lists.
-/
namespace Verif

/-- `NumberNorm` (norms.py:125-233) and `ExpressionNorm` (236-end). -/
inductive Norm where
  | number (norm_value : ℝ)
  | expr (expr_name : String)

/-- `value(real_vals)`: NumberNorm 158-166, ExpressionNorm 276-288. -/
def Norm.value (vals : Dict ℝ) : Norm → Except PyErr ℝ
  | .number v => .ok v
  | .expr e => if e = "" then .ok 1 else vals.getItem e

/-- `gradient(pars, reals, real_vals)`: NumberNorm 168-182, ExpressionNorm 290-304.
`fuel` bounds the recursion depth. -/
noncomputable def Norm.gradient {ι : Type} [DecidableEq ι] (pois : ι → String) (reals : Dict Expr)
    (vals : Dict ℝ) (fuel : Nat) : Norm → Except PyErr (ι → ℝ)
  | .number _ => .ok 0
  | .expr e => Expr.gradient pois reals vals fuel e

/-- `hessian(pars, reals, real_vals)`: NumberNorm 184-198, ExpressionNorm 306-319. -/
noncomputable def Norm.hessian {ι : Type} [DecidableEq ι] (pois : ι → String) (reals : Dict Expr)
    (vals : Dict ℝ) (fuel : Nat) : Norm → Except PyErr (ι → ι → ℝ)
  | .number _ => .ok 0
  | .expr e => Expr.hessian pois reals vals fuel e

/-- A key of a dictionary of variations: the words `pos`, `neg`, or the text of a number.  Texts
are identified with the number they denote (the code looks up the canonical text `'%+g' % v`). -/
inductive VarKey where
  | pos | neg | num (v : ℝ)

/-- `+1 if var == 'pos' else -1 if var == 'neg' else float(var)` (sample.py:152). -/
def VarKey.toReal : VarKey → ℝ
  | .pos => 1
  | .neg => -1
  | .num v => v

/-- A value of `Sample.impacts` (sample.py:24-58): per-bin list of variation dictionaries, one
dictionary common to all bins, or a float.  (An `int` raises `TypeError` in
`available_variations`; not modelled.) -/
inductive Impact where
  | perBin (l : List (List (VarKey × ℝ)))
  | common (d : List (VarKey × ℝ))
  | float (v : ℝ)

open Classical in
/-- `imp['%+g' % variation]`. -/
noncomputable def lookupVar : List (VarKey × ℝ) → ℝ → Except PyErr ℝ
  | [], _ => .error .keyError
  | (k, y) :: l, v => if k = .num v then .ok y else lookupVar l v

/-- `Sample` (sample.py:60-80) after `set_np_data`, when `nominal_norm` and `nominal_yields` are
filled.  The dictionary attributes caching variations are not modelled. -/
structure Sample where
  name : String
  norm : Norm
  nominal_norm : ℝ
  nominal_yields : List ℝ
  impacts : Dict Impact

/-- `Sample` as loaded or constructed, before `set_np_data`. -/
structure RawSample where
  name : String
  norm : Norm
  nominal_norm : Option ℝ
  nominal_yields : Option (List ℝ)
  impacts : Dict Impact

open Classical in
/-- `ExpressionNorm.implicit_impact` (norms.py:256-274; NumberNorm 138-156 returns `None`), for
NP `par`, with `variation = 1` as called from core.py:503. -/
noncomputable def Norm.implicitImpact (par : NP ℝ) (reals : Dict Expr) (vals : Dict ℝ) (fuel : Nat) :
    Norm → Except PyErr (Option Impact)
  | .number _ => .ok none
  | .expr e => do
    let rel ← if par.nominal_value ≠ 0 then do
        let g ← Expr.gradient (fun _ : Fin 1 => par.name) reals vals fuel e
        pure (1 * par.variation * g 0 / par.nominal_value)
      else pure 0
    return some (.common [(.num 1, rel), (.num (-1), -rel)])

/-- `Sample.set_np_data` (sample.py:93-137). -/
noncomputable def RawSample.setNpData (s : RawSample) (nps : List (NP ℝ)) (reals : Dict Expr)
    (vals : Dict ℝ) (fuel : Nat) : Except PyErr Sample := do
  let nn : ℝ := match s.nominal_norm with
    | some v => v
    | none => match s.norm.value (nps.map fun p => (p.name, p.nominal_value)) with
      | .ok v => v
      | .error _ => 1
  let ny := s.nominal_yields.getD [nn]
  let imps ← nps.foldlM (fun (imps : Dict Impact) par =>
    match imps.get? par.name with
    | some _ => pure imps
    | none => do
      match ← s.norm.implicitImpact par reals vals fuel with
      | none => pure imps
      | some i => pure (imps.set par.name i)) s.impacts
  return ⟨s.name, s.norm, nn, ny, imps⟩

namespace Sample

/-- `available_variations(par)` with `par` given (sample.py:139-152). -/
def availableVariations (s : Sample) (par : String) : List ℝ :=
  match s.impacts.get? par with
  | none => [1, -1]
  | some (.float _) => [1, -1]
  | some (.perBin []) => []
  | some (.perBin (d :: _)) => d.map (fun kv => kv.1.toReal)
  | some (.common d) => d.map (fun kv => kv.1.toReal)

/-- `impact(par, variation)` with `normalize=False` (sample.py:154-184). -/
noncomputable def impact (s : Sample) (par : String) (v : ℝ) : Except PyErr (List ℝ) :=
  match s.impacts.get? par with
  | none => .ok (List.replicate s.nominal_yields.length 0)
  | some (.perBin l) => l.mapM (fun d => lookupVar d v)
  | some (.common d) => do
    let y ← lookupVar d v
    return List.replicate s.nominal_yields.length y
  | some (.float f) => .ok (List.replicate s.nominal_yields.length (f * v))

/-- The value that is interpolated: the impact, or in exponential mode
`np.log(np.maximum(np.minimum(1 + imp, 100), 1/100))` (sample.py:216-229). -/
noncomputable def impactVal (isLog : Bool) (imp : ℝ) : ℝ :=
  if isLog then Real.log (max (min (1 + imp) 100) (1 / 100)) else imp

open Classical in
/-- `interpolate_impact` (sample.py:236-246); `np.linalg.inv` of a singular matrix raises. -/
noncomputable def interpolateImpact (pos imps : List ℝ) : Except PyErr (List ℝ) :=
  if pos.length ≠ imps.length then .error .valueError else
  let V : Matrix (Fin pos.length) (Fin pos.length) ℝ := fun i j => pos[i] ^ (j.1 + 1)
  if V.det = 0 then .error .linAlgError else
  .ok (List.ofFn (V⁻¹.mulVec (fun i => imps.getD i 0)))

/-- The coefficients of one sign, as an array `(nbins, nvariations)` (the transpose taken at
core.py:518-519 is folded in); general route of sample.py:224-234.  `imps` is the array of
impacts, indexed by variation, then bin. -/
noncomputable def coeffRows (isLog : Bool) (vars : List ℝ) (imps : List (List ℝ)) :
    Except PyErr (List (List ℝ)) :=
  (List.range (imps.headD []).length).mapM fun b =>
    interpolateImpact vars (imps.map fun r => impactVal isLog (r.getD b 0))

/-- The single-variation shortcut (sample.py:216-222): `imp/var` or `log(clamp(1+imp))/var`. -/
noncomputable def shortRows (isLog : Bool) (v : ℝ) (imp : List ℝ) : List (List ℝ) :=
  imp.map fun y => [impactVal isLog y / v]

/-- The result of `impact_coefficients`: for each sign the number of variations, and for each bin
the list of coefficients. -/
structure Coeffs where
  npos : Nat
  pos : List (List ℝ)
  nneg : Nat
  neg : List (List ℝ)

/-- The positive variations considered (sample.py:204-209). -/
noncomputable def posVars (s : Sample) (par : String) (variations : Option (List ℝ)) : List ℝ :=
  match variations with
  | some vs => vs
  | none => ((s.availableVariations par).filter (fun v => decide (0 < v))).insertionSort (· ≤ ·)

/-- The negative variations considered (sample.py:204-209). -/
noncomputable def negVars (s : Sample) (par : String) (variations : Option (List ℝ)) : List ℝ :=
  match variations with
  | some vs => vs.map (fun v => -v)
  | none => ((s.availableVariations par).filter (fun v => decide (v < 0))).insertionSort (· ≤ ·)

/-- `impact_coefficients(par, variations, is_log)` (sample.py:186-234).  If no positive variation
or no negative one exists: `IndexError` in the shortcut, otherwise a zero-size array whose later
treatment is not modelled. -/
noncomputable def impactCoefficients (s : Sample) (par : String) (variations : Option (List ℝ))
    (isLog : Bool) : Except PyErr Coeffs := do
  let posVars := s.posVars par variations
  let negVars := s.negVars par variations
  let posImps ← posVars.mapM (s.impact par)
  let negImps ← negVars.mapM (s.impact par)
  match posVars, posImps, negVars, negImps with
  | [pv], [pi], nv :: _, ni :: _ =>
    return ⟨1, shortRows isLog pv pi, 1, shortRows isLog nv ni⟩
  | [_], [_], _, _ => throw .indexError
  | [], _, _, _ => throw .unmodelled
  | _, _, [], _ => throw .unmodelled
  | _, _, _, _ =>
    let p ← coeffRows isLog posVars posImps
    let q ← coeffRows isLog negVars negImps
    return ⟨posVars.length, p, negVars.length, q⟩

/-- `sym_impact(par)` (sample.py:248-262). -/
noncomputable def symImpact (s : Sample) (par : String) : Except PyErr (List ℝ) :=
  match s.impact par 1, s.impact par (-1) with
  | .ok a, .ok b => .ok (List.zipWith (fun x y => (1 / 2) * (x - y)) a b)
  | _, _ => s.impact par 1

open Classical in
/-- `normalization(real_vals)` (sample.py:264-272); a zero `nominal_norm` gives `inf`/`nan` or
`ZeroDivisionError`. -/
noncomputable def normalization (s : Sample) (vals : Dict ℝ) : Except PyErr ℝ := do
  let v ← s.norm.value vals
  if s.nominal_norm = 0 then throw .zeroDivision
  return v / s.nominal_norm

/-- `yields(real_vals)` (sample.py:274-282). -/
noncomputable def yields (s : Sample) (vals : Dict ℝ) : Except PyErr (List ℝ) := do
  let c ← s.normalization vals
  return s.nominal_yields.map (fun y => c * y)

open Classical in
/-- `gradient(pois, reals, real_vals)` (sample.py:284-299): one POI vector per bin. -/
noncomputable def gradient {ι : Type} [DecidableEq ι] (s : Sample) (pois : ι → String)
    (reals : Dict Expr) (vals : Dict ℝ) (fuel : Nat) : Except PyErr (List (ι → ℝ)) := do
  let g ← s.norm.gradient pois reals vals fuel
  if s.nominal_norm = 0 then throw .zeroDivision
  return s.nominal_yields.map (fun y i => y * g i / s.nominal_norm)

open Classical in
/-- `hessian(pois, reals, real_vals)` (sample.py:301-316): one POI matrix per bin. -/
noncomputable def hessian {ι : Type} [DecidableEq ι] (s : Sample) (pois : ι → String)
    (reals : Dict Expr) (vals : Dict ℝ) (fuel : Nat) : Except PyErr (List (ι → ι → ℝ)) := do
  let h ← s.norm.hessian pois reals vals fuel
  if s.nominal_norm = 0 then throw .zeroDivision
  return s.nominal_yields.map (fun y i j => y * h i j / s.nominal_norm)

end Sample
end Verif
