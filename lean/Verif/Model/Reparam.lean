import Verif.Model.Expr
/-!
# Model of `Expression.replace` (expressions.py) and of `ModelReparam.remove_pois` (model_tools.py)

The state is the dictionary of expression objects `model.expressions`, which `replace` changes in
place.  A returned value `none` means that the method returned the expression itself (possibly
changed), `some v` that it returned a new `Number` of value `v` (the test `new_expr != reals[expr]`
of the code compares object identities).
-/
namespace Verif

namespace Expr

/-- `reals[k]` where `reals` is `Model.reals()` (core.py:575-585): an expression of the model, else
a `SingleParameter` if `k` is the name of a POI or NP, else `KeyError`. -/
def find (params : List String) (S : Dict Expr) (k : String) : Except PyErr Expr :=
  match S.get? k with
  | some e => .ok e
  | none => if k ∈ params then .ok .single else .error .keyError

/-- The outcome of a loop over the terms of an expression: the new state, the pairs (coefficient,
value) of the terms that became numbers, and the terms that are kept. -/
structure LoopOut where
  state : Dict Expr
  removed : List (ℝ × ℝ)
  kept : Dict ℝ

/-- The loops `for expr in ... : new_expr = reals[expr].replace(name, value, reals); if new_expr !=
reals[expr] : ...; to_remove.append(expr)` (expressions.py:512-517, 688-693, 695-702), `rec` standing
for the recursive call. -/
def replaceLoop (rec : Dict Expr → String → Except PyErr (Dict Expr × Option ℝ)) :
    Dict Expr → Dict ℝ → Except PyErr LoopOut
  | S, [] => .ok ⟨S, [], []⟩
  | S, (k, c) :: rest => do
    let r ← rec S k
    let out ← replaceLoop rec r.1 rest
    match r.2 with
    | some v => return ⟨out.state, (c, v) :: out.removed, out.kept⟩
    | none => return ⟨out.state, out.removed, (k, c) :: out.kept⟩

/-- `LinearCombination.replace` after its loop (517-519). -/
def replaceLinear (nm : String) (nominal : ℝ) (out : LoopOut) : Dict Expr × Option ℝ :=
  let nominal' := nominal + (out.removed.map (fun p => p.1 * p.2)).sum
  (out.state.set nm (.linear nominal' out.kept), if out.kept = [] then some nominal' else none)

open Classical in
/-- `ProductRatio.replace` (687-704).  The lists `numerator` and `denominator` are indexed by a
string in `del self.numerator[expr]`, a `TypeError`; a denominator term that becomes 0 is a
`ValueError` (raised here after the whole loop).  `rec` is the recursive call. -/
noncomputable def replaceProd (rec : Dict Expr → String → Except PyErr (Dict Expr × Option ℝ))
    (prefactor : ℝ) (num den : List String) (S : Dict Expr) :
    Except PyErr (Dict Expr × Option ℝ) := do
  let o1 ← replaceLoop rec S (num.map (fun k => (k, 1)))
  if o1.removed ≠ [] then throw .typeError
  let o2 ← replaceLoop rec o1.state (den.map (fun k => (k, 1)))
  if ∃ p ∈ o2.removed, p.2 = 0 then throw .valueError
  if o2.removed ≠ [] then throw .typeError
  return (o2.state, if num.length + den.length > 0 then none else some prefactor)

/-- `reals[nm].replace(name, value, reals)` (Number 253, SingleParameter 371-374,
LinearCombination 511-519, ProductRatio 687-704, Exponential 840-844), the recursion depth being
bounded by the first argument.  `value` is `none` for Python's `None`. -/
noncomputable def replace (params : List String) (name : String) (value : Option ℝ) :
    Nat → Dict Expr → String → Except PyErr (Dict Expr × Option ℝ)
  | 0, _, _ => .error .unmodelled
  | fuel + 1, S, nm => do
    match ← find params S nm with
    | .number _ => return (S, none)
    | .single =>
      if nm = name then
        match value with
        | none => throw .keyError
        | some v => return (S, some v)
      else return (S, none)
    | .linear nominal coeffs => do
      let out ← replaceLoop (replace params name value fuel) S coeffs
      return replaceLinear nm nominal out
    | .prodRatio pre num den => replaceProd (replace params name value fuel) pre num den S
    | .exponential e => do
      let r ← replace params name value fuel S e
      return (r.1, r.2.map Real.exp)
end Expr

/-- The parts of a `Model` that `ModelReparam` sees: POI names, NPs with nominal values,
expressions, and the expression names of the `ExpressionNorm`s of its samples. -/
structure PoiModel where
  pois : List String
  nps : Dict ℝ
  exprs : Dict Expr
  norms : List String

namespace PoiModel

/-- The model as seen by the evaluation of expressions. -/
def ctx (m : PoiModel) : ExprCtx m.pois.length := ⟨m.pois.get, m.nps, m.exprs⟩

/-- `model.real_vals(pars)` where POI `k` has value `p k`. -/
noncomputable def realVals (m : PoiModel) (p : String → ℝ) : Except PyErr (Dict ℝ) :=
  m.ctx.realVals (fun i => p (m.pois.get i))

/-- `ModelReparam.remove_from_norms` (model_tools.py:443-464): if a sample is normalised by `name`,
line 460 reads the undefined variable `selected_name` (`NameError`) when a value was given, and a
`KeyError` is raised otherwise. -/
def removeFromNorms (m : PoiModel) (name : String) (values : Dict ℝ) : Except PyErr Unit :=
  if name ∈ m.norms then
    match values.get? name with
    | some _ => .error .nameError
    | none => .error .keyError
  else .ok ()

/-- The loop `for expr in self.model.expressions.values()` of `remove_pois` (419-423): the new
state of the expressions, and the names and values of those that became numbers. -/
noncomputable def replaceAll (fuel : Nat) (params : List String) (name : String) (value : Option ℝ) :
    Dict Expr → List String → Except PyErr (Dict Expr × Dict ℝ)
  | S, [] => .ok (S, [])
  | S, nm :: rest => do
    let r ← Expr.replace params name value fuel S nm
    let out ← replaceAll fuel params name value r.1 rest
    match r.2 with
    | some v => return (out.1, (nm, v) :: out.2)
    | none => return out

/-- The body of the loop over the selected POIs (415-424). -/
noncomputable def removePoi (fuel : Nat) (values : Dict ℝ) (m : PoiModel) (name : String) :
    Except PyErr (PoiModel × Dict ℝ) := do
  if name ∉ m.exprs.keys then m.removeFromNorms name values
  let out ← replaceAll fuel (m.pois ++ m.nps.keys) name (values.get? name) m.exprs m.exprs.keys
  if name ∉ m.pois then throw .keyError
  return ({ m with pois := m.pois.erase name, exprs := out.1 }, out.2)

/-- The loop over the selected POIs, with `expressions_to_remove` and `expression_values` in order. -/
noncomputable def removePoiLoop (fuel : Nat) (values : Dict ℝ) :
    PoiModel → List String → Except PyErr (PoiModel × Dict ℝ)
  | m, [] => .ok (m, [])
  | m, nm :: rest => do
    let r ← removePoi fuel values m nm
    let out ← removePoiLoop fuel values r.1 rest
    return (out.1, r.2 ++ out.2)

/-- The last loop of `remove_expressions` (437-440) for names that were all present: `pop`, then
`remove_from_norms`.  A name that occurs twice is a `KeyError` at its second `pop`. -/
def removeExprs (values : Dict ℝ) : PoiModel → List String → Except PyErr PoiModel
  | m, [] => .ok m
  | m, nm :: rest => do
    if nm ∉ m.exprs.keys then throw .keyError
    m.removeFromNorms nm values
    removeExprs values { m with exprs := m.exprs.filter (fun p => p.1 ≠ nm) } rest

/-- `ModelReparam.remove_pois` (389-425) for POIs given by name (the selection by regular
expression, 405-412, is not modelled: a name that is not a POI is an error here). -/
noncomputable def removePois (fuel : Nat) (m : PoiModel) (names : List String) (values : Dict ℝ) :
    Except PyErr PoiModel := do
  if ∃ nm ∈ names, nm ∉ m.pois then throw .unmodelled
  let out ← removePoiLoop fuel values m names
  removeExprs out.2 out.1 out.2.keys

end PoiModel
end Verif
