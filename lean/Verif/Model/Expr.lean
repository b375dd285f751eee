import Verif.Model.Params
import Mathlib.Data.Real.Basic
import Mathlib.Analysis.SpecialFunctions.Exp
import Mathlib.Data.List.OfFn
/-!
# Model of `/repo/src/fastprof/expressions.py` and of `Model.reals` / `Model.real_vals`

Numbers are reals.  `ι → ℝ` is the numpy array indexed by the POIs of the model.
The class `Formula` (expressions.py:872-951), whose loading code raises `NameError`, is not modelled.
-/
namespace Verif

/-- The expression classes (expressions.py:171-868).  The `name` attribute is kept outside
(it is the key of the expression in `model.expressions`). -/
inductive Expr where
  /-- `Number` (171-276), attribute `val` -/
  | number (val : ℝ)
  /-- `SingleParameter` (280-398): the parameter with the expression's own name -/
  | single
  /-- `LinearCombination` (402-535), attributes `nominal_value`, `coeffs` -/
  | linear (nominal_value : ℝ) (coeffs : Dict ℝ)
  /-- `ProductRatio` (539-745), attributes `prefactor`, `numerator`, `denominator` -/
  | prodRatio (prefactor : ℝ) (numerator denominator : List String)
  /-- `Exponential` (750-868), attribute `exponent` -/
  | exponential (exponent : String)

namespace Expr

/-- `[ real_vals[expr] for expr in names ]`, `KeyError` when one is unknown. -/
def lookups (vals : Dict ℝ) (names : List String) : Except PyErr (List ℝ) :=
  names.mapM vals.getItem

open Classical in
/-- `value(real_vals)` of each class: Number 193-203, SingleParameter 302-315,
LinearCombination 436-455, ProductRatio 578-606, Exponential 770-782.
The accumulation loop of LinearCombination is a sum.  For ProductRatio a vanishing denominator,
which gives `inf`/`nan` in numpy, is the error value `zeroDivision`. -/
noncomputable def value (vals : Dict ℝ) (name : String) : Expr → Except PyErr ℝ
  | number v => .ok v
  | single => vals.getItem name
  | linear nominal coeffs => do
    let vs ← lookups vals coeffs.keys
    return nominal + (List.zipWith (fun kc v => kc.2 * v) coeffs vs).sum
  | prodRatio prefactor num den => do
    let nums ← lookups vals num
    let dens ← lookups vals den
    if dens.prod = 0 then throw .zeroDivision
    return prefactor * nums.prod / dens.prod
  | exponential e => do
    return Real.exp (← vals.getItem e)

section grad
variable {ι : Type} [DecidableEq ι]

/-- `ProductRatio.prod_gradient` (610-616): for each factor the product of the others (the
diagonal of the tiled matrix is set to 1) times its gradient, summed. -/
def prodGradient (vs : List ℝ) (gs : List (ι → ℝ)) : ι → ℝ := fun i =>
  ((List.range vs.length).map (fun k => (vs.set k 1).prod * (gs.getD k 0) i)).sum

/-- `ProductRatio.norm_gradient` (618-623): sum of gradient/value over the factors. -/
noncomputable def normGradient (vs : List ℝ) (gs : List (ι → ℝ)) : ι → ℝ := fun i =>
  (List.zipWith (fun v g => g i / v) vs gs).sum

/-- `ProductRatio.norm_hessian` (642-647). -/
noncomputable def normHessian (vs : List ℝ) (gs : List (ι → ℝ)) (hs : List (ι → ι → ℝ)) :
    ι → ι → ℝ := fun i j =>
  (List.zipWith (fun v gh => (gh.2 i j - gh.1 j * gh.1 i / v) / v) vs (gs.zip hs)).sum

open Classical in
/-- One level of `gradient(pars, reals, real_vals)`: Number 205-217, SingleParameter 317-334,
LinearCombination 457-472, ProductRatio 625-640, Exponential 784-804.
`recur n` stands for `reals[n].gradient(...)`, `pois` for the POI names in order.
A vanishing denominator factor (numpy: `inf`/`nan`) is an error value. -/
noncomputable def gradStep (pois : ι → String) (vals : Dict ℝ)
    (recur : String → Except PyErr (ι → ℝ)) (name : String) : Expr → Except PyErr (ι → ℝ)
  | number _ => .ok 0
  | single => .ok (fun i => if pois i = name then 1 else 0)
  | linear _ coeffs => do
    let gs ← coeffs.keys.mapM recur
    return fun i => (List.zipWith (fun kc g => kc.2 * g i) coeffs gs).sum
  | prodRatio prefactor num den => do
    let nums ← lookups vals num
    let numg ← num.mapM recur
    let dens ← lookups vals den
    let deng ← den.mapM recur
    if dens.prod = 0 then throw .zeroDivision
    return fun i => prefactor * prodGradient nums numg i / dens.prod
      - prefactor * nums.prod / dens.prod * normGradient dens deng i
  | exponential e => do
    let g ← recur e
    let v ← vals.getItem e
    return fun i => Real.exp v * g i

open Classical in
/-- One level of `hessian(pars, reals, real_vals)`: Number 219-233, SingleParameter 336-352,
LinearCombination 474-490, ProductRatio 649-667, Exponential 806-824.
A vanishing factor (numpy: `nan`) is an error value, in the numerator too, as the code divides
by every factor. -/
noncomputable def hessStep (vals : Dict ℝ)
    (recurG : String → Except PyErr (ι → ℝ)) (recurH : String → Except PyErr (ι → ι → ℝ)) :
    Expr → Except PyErr (ι → ι → ℝ)
  | number _ => .ok 0
  | single => .ok 0
  | linear _ coeffs => do
    let hs ← coeffs.keys.mapM recurH
    return fun i j => (List.zipWith (fun kc h => kc.2 * h i j) coeffs hs).sum
  | prodRatio prefactor num den => do
    let nums ← lookups vals num
    let numg ← num.mapM recurG
    let numh ← num.mapM recurH
    let dens ← lookups vals den
    let deng ← den.mapM recurG
    let denh ← den.mapM recurH
    if nums.prod = 0 ∨ dens.prod = 0 then throw .zeroDivision
    return fun i j => prefactor * nums.prod / dens.prod *
      (normHessian nums numg numh i j - normHessian dens deng denh i j
        + (normGradient nums numg i - normGradient dens deng i) *
          (normGradient nums numg j - normGradient dens deng j))
  | exponential e => do
    let g ← recurG e
    let v ← vals.getItem e
    let h ← recurH e
    return fun i j => Real.exp v * (h i j + g i * g j)

/-- `reals[name].gradient(pars, reals, real_vals)` with the recursion depth bounded by `fuel`
(Python: `RecursionError`; a depth of one per expression is enough, see the theorems). -/
noncomputable def gradient (pois : ι → String) (reals : Dict Expr) (vals : Dict ℝ) :
    Nat → String → Except PyErr (ι → ℝ)
  | 0, _ => .error .unmodelled
  | fuel + 1, name => do
    let e ← reals.getItem name
    e.gradStep pois vals (gradient pois reals vals fuel) name

/-- `reals[name].hessian(pars, reals, real_vals)`, with bounded recursion depth. -/
noncomputable def hessian (pois : ι → String) (reals : Dict Expr) (vals : Dict ℝ) :
    Nat → String → Except PyErr (ι → ι → ℝ)
  | 0, _ => .error .unmodelled
  | fuel + 1, name => do
    let e ← reals.getItem name
    e.hessStep vals (gradient pois reals vals fuel) (hessian pois reals vals fuel)
end grad
end Expr

/-- The parts of a `Model` that expressions see: POI names, NPs with their nominal values, and
the ordered dictionary of expressions (core.py:396-412). -/
structure ExprCtx (n : Nat) where
  pois : Fin n → String
  nps : Dict ℝ
  exprs : Dict Expr

namespace ExprCtx
variable {n : Nat}

/-- `pars.dict(nominal_nps=True)` (core.py:670, 242-260): POI values, then NP nominal values.
(See `Pars.dict_nominal_eq` for the link with the model of `Parameters.dict`.) -/
def base (c : ExprCtx n) (x : Fin n → ℝ) : Dict ℝ :=
  List.ofFn (fun i => (c.pois i, x i)) ++ c.nps

/-- The loop of `Model.real_vals` (core.py:671). -/
noncomputable def evalLoop : Dict Expr → Dict ℝ → Except PyErr (Dict ℝ)
  | [], vals => .ok vals
  | (name, e) :: rest, vals => do
    let v ← e.value vals name
    evalLoop rest (vals.set name v)

/-- `Model.real_vals` (core.py:655-672). -/
noncomputable def realVals (c : ExprCtx n) (x : Fin n → ℝ) : Except PyErr (Dict ℝ) :=
  evalLoop c.exprs (c.base x)

/-- `Model.reals` (core.py:575-585) for distinct names: a `SingleParameter` per POI and NP,
then the expressions. -/
def reals (c : ExprCtx n) : Dict Expr :=
  List.ofFn (fun i => (c.pois i, Expr.single)) ++ c.nps.map (fun p => (p.1, Expr.single)) ++ c.exprs

/-- Gradient of the real called `name` at `x`, as used by `norms.py:290-319` and
`Model.gradient`; the recursion depth allowed is one more than the number of expressions. -/
noncomputable def gradient (c : ExprCtx n) (x : Fin n → ℝ) (name : String) :
    Except PyErr (Fin n → ℝ) := do
  Expr.gradient c.pois c.reals (← c.realVals x) (c.exprs.length + 1) name

/-- Hessian of the real called `name` at `x`. -/
noncomputable def hessian (c : ExprCtx n) (x : Fin n → ℝ) (name : String) :
    Except PyErr (Fin n → Fin n → ℝ) := do
  Expr.hessian c.pois c.reals (← c.realVals x) (c.exprs.length + 1) name

/-- Names are pairwise distinct (dict keys; POI/NP/expression names). -/
def Distinct (c : ExprCtx n) : Prop :=
  (List.ofFn c.pois ++ Dict.keys c.nps ++ Dict.keys c.exprs).Nodup

end ExprCtx
end Verif
