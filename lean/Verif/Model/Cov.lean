import Verif.Model.Core
import Mathlib.LinearAlgebra.Matrix.NonsingularInverse
import Mathlib.Data.Real.Sqrt
/-!
# Model of the POI covariance, errors and correlations (`/repo/src/fastprof/core.py:868-916`)

Exact arithmetic: `np.linalg.inv` raises `LinAlgError` exactly on singular matrices.
-/
namespace Verif

open Classical in
/-- `np.sqrt` of a finite number (`nan` with a warning below 0). -/
noncomputable def Flt.sqrt (r : ℝ) : Flt := if 0 ≤ r then .fin (Real.sqrt r) else .nan

/-- `a / b` for two floats (a zero divisor taken as `+0`). -/
noncomputable def Flt.quot : Flt → Flt → Flt
  | .fin a, .fin b => Flt.div a b
  | .nan, _ => .nan
  | _, .nan => .nan
  | .fin _, _ => .fin 0
  | .pinf, .fin b => if 0 ≤ b then .pinf else .ninf
  | .ninf, .fin b => if 0 ≤ b then .ninf else .pinf
  | _, _ => .nan

namespace Mdl
variable {n P : Nat}

open Classical in
/-- `covariance_matrix` (core.py:868-884): `None` if the matrix is singular.  `hessian` may return `None`, on
which `np.linalg.inv` also raises `LinAlgError` (not a two-dimensional array). -/
noncomputable def covarianceMatrix (m : Mdl n P) (A : Arrays) (x : Fin n → ℝ) (θ : Fin P → ℝ)
    (d : DataV P) : Option (Matrix (Fin n) (Fin n) ℝ) :=
  match m.hessian A x θ d with
  | none => none
  | some H => if (Matrix.of H).det = 0 then none else some (Matrix.of H)⁻¹

/-- `cov = covmat if covmat is not None else self.covariance_matrix(pars, data)` (core.py:898, 914), then
`cov.diagonal()`: `AttributeError` on `None`. -/
noncomputable def covOf (m : Mdl n P) (A : Arrays) (x : Fin n → ℝ) (θ : Fin P → ℝ) (d : DataV P)
    (covmat : Option (Matrix (Fin n) (Fin n) ℝ)) : Except PyErr (Matrix (Fin n) (Fin n) ℝ) :=
  match covmat.or (m.covarianceMatrix A x θ d) with
  | none => .error .attributeError
  | some C => .ok C

/-- `errors = np.sqrt(cov.diagonal())` (core.py:899, 915). -/
noncomputable def errorsOf (C : Matrix (Fin n) (Fin n) ℝ) : Fin n → Flt := fun i => Flt.sqrt (C i i)

/-- `parabolic_errors` (core.py:886-900): by POI name, in POI order. -/
noncomputable def parabolicErrors (m : Mdl n P) (A : Arrays) (x : Fin n → ℝ) (θ : Fin P → ℝ)
    (d : DataV P) (covmat : Option (Matrix (Fin n) (Fin n) ℝ) := none) : Except PyErr (Dict Flt) := do
  let C ← m.covOf A x θ d covmat
  return Dict.setAll [] (List.ofFn fun i => (m.pois i, errorsOf C i))

/-- `correlation_matrix` (core.py:902-916): `(cov.T / errors).T / errors`. -/
noncomputable def correlationMatrix (m : Mdl n P) (A : Arrays) (x : Fin n → ℝ) (θ : Fin P → ℝ)
    (d : DataV P) (covmat : Option (Matrix (Fin n) (Fin n) ℝ) := none) :
    Except PyErr (Fin n → Fin n → Flt) := do
  let C ← m.covOf A x θ d covmat
  let e := errorsOf C
  let t := fun j i => Flt.quot (.fin (C i j)) (e i)
  return fun i j => Flt.quot (t j i) (e j)

end Mdl
end Verif
