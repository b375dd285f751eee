import Verif.Model.Scans
/-!
# Model of scan resampling and of the two-dimensional best fit (`/repo/src/fastprof/scans.py`)
-/
namespace Verif
namespace Scan
open Classical

/-- `np.linspace(a, b, n, endpoint=True)`. -/
noncomputable def linspace (a b : ℝ) (n : ℕ) : List ℝ :=
  (List.range n).map fun i : ℕ => if n = 1 then a else a + i * ((b - a) / (n - 1))

/-- `pts[0][0]`, `pts[0][-1]` (scans.py:285). -/
def endPoints (xs : List ℝ) : Except PyErr (ℝ × ℝ) :=
  match xs.head?, xs.getLast? with
  | some a, some b => .ok (a, b)
  | _, _ => .error .indexError

/-- `Scan1D.spline` (scans.py:250-262). -/
noncomputable def spline1 (key poi : String) (r : SRaster) (order : ℕ := 3) : Except PyErr Spl := do
  let pts ← points key poi r
  spline pts.1 pts.2 order

/-- `Scan1D.resample` (scans.py:264-287). -/
noncomputable def resample (L : SplineLib) (key poi : String) (r : SRaster) (n : ℕ := 100) (order : ℕ := 3) :
    Except PyErr (List ℝ × List ℝ) := do
  let pts ← points key poi r
  let ab ← endPoints pts.1
  let grid := linspace ab.1 ab.2 n
  let spl ← spline1 key poi r order
  return (grid, grid.map (L.eval spl))

/-- The libraries behind a two-dimensional best fit: `scipy.interpolate.SmoothBivariateSpline` (`build xs ys zs order`, the
surface or the exception), and `scipy.optimize.minimize(f, x0, method='L-BFGS-B')` (whether it reports success, and the
point). -/
structure SurfaceLib where
  build : List ℝ → List ℝ → List ℝ → ℕ → Except PyErr (ℝ → ℝ → ℝ)
  minimize : (ℝ × ℝ → ℝ) → ℝ × ℝ → Bool × (ℝ × ℝ)

/-- `PLRScan2D.spline` (scans.py:688-700). -/
noncomputable def spline2 (L : SurfaceLib) (key poi1 poi2 : String) (r : SRaster) (order : ℕ := 3) :
    Except PyErr (ℝ → ℝ → ℝ) := do
  let pts ← points2 key poi1 poi2 r
  L.build pts.1 pts.2.1 pts.2.2 order

/-- The result of the minimisation (scans.py:716-723). -/
def bestOr (result : Bool × (ℝ × ℝ)) (init : ℝ × ℝ) : ℝ × ℝ := if result.1 = false then init else result.2

/-- `PLRScan2D.best_fit` (scans.py:702-723). -/
noncomputable def bestFit2 (L : SurfaceLib) (key poi1 poi2 : String) (r : SRaster) : Except PyErr (ℝ × ℝ) := do
  let spl ← spline2 L key poi1 poi2 r
  let best ← minimum key r
  let init1 ← Dict.getItem best.1 poi1
  let init2 ← Dict.getItem best.1 poi2
  return bestOr (L.minimize (fun p => spl p.1 p.2) (init1, init2)) (init1, init2)

end Scan
end Verif
