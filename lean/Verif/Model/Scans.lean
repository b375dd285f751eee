import Verif.Model.FitData
import Verif.Spec.Dist
import Mathlib.Analysis.SpecialFunctions.Log.Basic
/-!
# Model of the scans (`/repo/src/fastprof/scans.py`)

Splines (`scipy.interpolate.InterpolatedUnivariateSpline`) are a parameter: `SplineLib` says how a
spline object is evaluated and which roots scipy reports; nothing is assumed about it here.
-/
namespace Verif
open Classical

/-- A stored value: a number, or a tuple (value, error) (scans.py:110, 115). -/
inductive SVal where
  | num (x : ℝ)
  | pair (x err : ℝ)

/-- The values stored at one point of a raster (`PLRData.pvs`, `PLRData.test_statistics`). -/
structure SPoint where
  pvs : Dict SVal
  test_statistics : Dict SVal

/-- The raster of a scan: `raster.plr_data`, with `raster.pois` and whether `raster.model` is set
left out. -/
abbrev SRaster := List (Hypo × SPoint)

/-- A raster of `Model/FitData`, seen by a scan. -/
def SRaster.ofRaster (r : Raster) : SRaster :=
  r.map (fun e => (e.1, ⟨e.2.data.pvs.map (fun kv => (kv.1, .num kv.2)),
    e.2.data.testStats.map (fun kv => (kv.1, .num kv.2))⟩))

/-- A `InterpolatedUnivariateSpline(xs, ys, k=order)` object. -/
structure Spl where
  xs : List ℝ
  ys : List ℝ
  order : ℕ

/-- scipy's splines: value at a point, `roots()`, and `derivative().roots()`. -/
structure SplineLib where
  eval : Spl → ℝ → ℝ
  roots : Spl → List ℝ
  stationary : Spl → List ℝ

namespace Scan

/-- `InterpolatedUnivariateSpline(xs, ys, k=order)`: `ValueError` unless the `x` values strictly
increase, `1 <= order <= 5` and there are more than `order` points. -/
noncomputable def spline (xs ys : List ℝ) (order : ℕ) : Except PyErr Spl :=
  if xs.Pairwise (· < ·) ∧ xs.length = ys.length ∧ 1 ≤ order ∧ order ≤ 5 ∧ order < xs.length then
    .ok ⟨xs, ys, order⟩
  else .error .valueError

/-- `Scan.__init__` (scans.py:52-70) without calculator: `KeyError` if `raster.is_filled(key)`
(fit_data.py:487-501) is false. -/
def init (r : SRaster) (key : String) : Except PyErr Unit :=
  if ∀ e ∈ r, key ∈ Dict.keys e.2.pvs ∨ key ∈ Dict.keys e.2.test_statistics then .ok ()
  else .error .keyError

/-- `Scan.find_poi` (scans.py:71-92) on the POI names of the raster.  For a name that is not a POI
the message of the `KeyError` refers to the undefined variable `raster` (90): `NameError`. -/
def findPoi (pois : List String) (name : Option String) (index : ℕ := 0) : Except PyErr String :=
  match name with
  | some n => if n ∈ pois then .ok n else .error .nameError
  | none => match pois[index]? with
    | some n => .ok n
    | none => .error .indexError

/-- `Scan.value` (scans.py:94-115).  Without error information a non-zero variation executes
`raise('...')`, a `TypeError`. -/
noncomputable def value (key : String) (p : SPoint) (with_variation : ℝ := 0) : Except PyErr ℝ := do
  let raw ← match Dict.get? p.pvs key with
    | some v => Except.ok v
    | none => Dict.getItem p.test_statistics key
  match raw with
  | .num x => if with_variation = 0 then return x else throw .typeError
  | .pair x e => return x + with_variation * e

/-- The pair collected by `minimum` and `maximum`. -/
noncomputable def entry (key : String) (e : Hypo × SPoint) : Except PyErr (Hypo × ℝ) := do
  return (e.1, ← value key e.2)

/-- Python's `min(l, key=lambda x: x[1])`: the first of the smallest. -/
noncomputable def pyMin {α : Type} : α × ℝ → List (α × ℝ) → α × ℝ
  | best, [] => best
  | best, a :: l => pyMin (if a.2 < best.2 then a else best) l

/-- Python's `max(l, key=lambda x: x[1])`: the first of the largest. -/
noncomputable def pyMax {α : Type} : α × ℝ → List (α × ℝ) → α × ℝ
  | best, [] => best
  | best, a :: l => pyMax (if a.2 > best.2 then a else best) l

/-- `Scan.minimum` (scans.py:117-126); `ValueError` on an empty raster. -/
noncomputable def minimum (key : String) (r : SRaster) : Except PyErr (Hypo × ℝ) := do
  match ← r.mapM (entry key) with
  | [] => throw .valueError
  | a :: l => return pyMin a l

/-- `Scan.maximum` (scans.py:128-137). -/
noncomputable def maximum (key : String) (r : SRaster) : Except PyErr (Hypo × ℝ) := do
  match ← r.mapM (entry key) with
  | [] => throw .valueError
  | a :: l => return pyMax a l

/-- One point of `Scan1D.points` (scans.py:240-243). -/
noncomputable def point (key poi : String) (v : ℝ) (e : Hypo × SPoint) : Except PyErr (ℝ × ℝ) := do
  let x ← Dict.getItem e.1 poi
  let y ← value key e.2 v
  return (x, y)

/-- `Scan1D.points` (scans.py:222-248): POI values and result values, in the order of the raster;
`v` is 0 for the central values, ±1 for the error bands. -/
noncomputable def points (key poi : String) (r : SRaster) (v : ℝ := 0) :
    Except PyErr (List ℝ × List ℝ) := do
  let l ← r.mapM (point key poi v)
  return (l.map Prod.fst, l.map Prod.snd)

/-- The loop of `interpolate_crossings` (scans.py:314-323): points with non-positive values are
skipped in log scale. -/
noncomputable def interpPoints (xs ys : List ℝ) (target : ℝ) (log_scale : Bool) : List (ℝ × ℝ) :=
  if log_scale then
    ((xs.zip ys).filter (fun p => 0 < p.2)).map (fun p => (p.1, Real.log (p.2 / target)))
  else (xs.zip ys).map (fun p => (p.1, p.2 - target))

/-- `Scan1D.interpolate_crossings` (scans.py:289-335), `target > 0` when `log_scale`.  Returns Python's
`None` (`none`) with fewer than 2 points; the order is reduced to the number of points minus 1, and
orders other than 3 give no crossing. -/
noncomputable def interpolateCrossings (L : SplineLib) (xs ys : List ℝ) (target : ℝ) (order : ℕ := 3)
    (log_scale : Bool := true) : Except PyErr (Option (List ℝ)) := do
  let pts := interpPoints xs ys target log_scale
  if pts.length < 2 then return none
  let order := if pts.length < order + 1 then pts.length - 1 else order
  let s ← spline (pts.map Prod.fst) (pts.map Prod.snd) order
  return some (if order = 3 then L.roots s else [])

/-- `Scan1D.interpolate_minima` (scans.py:337-374): only order 4 is supported. -/
noncomputable def interpolateMinima (L : SplineLib) (xs ys : List ℝ) (order : ℕ := 4) :
    Except PyErr (Option (List ℝ)) := do
  if xs.length < 2 then return none
  let order := if xs.length < order + 1 then xs.length - 1 else order
  let s ← spline xs ys order
  return some (if order = 4 then L.stationary s else [])

/-- `np.argmin(xs)`: the first index of the smallest value (`ValueError` when empty). -/
noncomputable def argMinIdx : List ℝ → Except PyErr ℕ
  | [] => .error .valueError
  | x :: xs => .ok ((pyMin (0, x) (xs.zipIdx.map (fun p => (p.2 + 1, p.1)))).1)

/-- `Scan1D.minima` (scans.py:209-220): with no minimum found, `values[np.argmin(hypos)]`, i.e. the
*result value* at the smallest POI value.  `len(None)` is a `TypeError`. -/
noncomputable def minima (L : SplineLib) (key poi : String) (r : SRaster) (order : ℕ := 3) :
    Except PyErr (List ℝ) := do
  let pts ← points key poi r
  match ← interpolateMinima L pts.1 pts.2 order with
  | none => throw .typeError
  | some l => if l.length > 0 then return l else
      match pts.2[(← argMinIdx pts.1)]? with
      | some y => return [y]
      | none => throw .indexError

/-- `Scan1D.crossings` (scans.py:170-207) with `with_errors=False`. -/
noncomputable def crossings (L : SplineLib) (key poi : String) (r : SRaster) (level : ℝ)
    (order : ℕ := 3) (log_scale : Bool := true) : Except PyErr (Option (List ℝ)) := do
  let pts ← points key poi r
  interpolateCrossings L pts.1 pts.2 level order log_scale

/-- `len(c)` for a list or `None`. -/
def lenOf (c : Option (List ℝ)) : Except PyErr (List ℝ) :=
  match c with
  | some l => .ok l
  | none => .error .typeError

/-- `Scan1D.crossings` with `with_errors=True` (scans.py:200-207). -/
noncomputable def crossingsErr (L : SplineLib) (key poi : String) (r : SRaster) (level : ℝ)
    (order : ℕ := 3) (log_scale : Bool := true) : Except PyErr (List (ℝ × ℝ × ℝ)) := do
  let p0 ← points key poi r 0
  let pu ← points key poi r 1
  let pd ← points key poi r (-1)
  let c0 ← interpolateCrossings L p0.1 p0.2 level order log_scale
  let cu ← interpolateCrossings L pu.1 pu.2 level order log_scale
  let cd ← interpolateCrossings L pd.1 pd.2 level order log_scale
  let lu ← lenOf cu
  let l0 ← lenOf c0
  if lu.length ≠ l0.length then throw .valueError
  let ld ← lenOf cd
  if ld.length ≠ l0.length then throw .valueError
  return (l0.zip (lu.zip ld)).map (fun p => (p.1, p.2.1, p.2.2))

/-- `UpperLimitScan.__init__` (scans.py:394-409): `self.cl = 0.95`, whatever the argument `cl`. -/
noncomputable def limitCl (_cl : ℝ) : ℝ := 95 / 100

/-- `UpperLimitScan.limit` (scans.py:411-435) with `with_errors=False`; `none` stands for the triplet
`(None, None, None)`.  `cl` is the argument of the constructor. -/
noncomputable def limit (L : SplineLib) (key poi : String) (r : SRaster) (cl : ℝ := 95 / 100)
    (order : ℕ := 3) (log_scale : Bool := true) : Except PyErr (Option ℝ) := do
  match ← lenOf (← crossings L key poi r (1 - limitCl cl) order log_scale) with
  | [] => return none
  | c :: _ => return some c

/-- `UpperLimitScan.limit` with `with_errors=True`. -/
noncomputable def limitErr (L : SplineLib) (key poi : String) (r : SRaster) (cl : ℝ := 95 / 100)
    (order : ℕ := 3) (log_scale : Bool := true) : Except PyErr (Option (ℝ × ℝ × ℝ)) := do
  match ← crossingsErr L key poi r (1 - limitCl cl) order log_scale with
  | [] => return none
  | c :: _ => return some c

/-- `scipy.stats.chi2.isf(p, k)`: the value exceeded with probability `p`. -/
noncomputable def chi2Isf (p : ℝ) (k : ℕ) : ℝ := if h : ∃ x, 0 ≤ x ∧ chi2Sf x k = p then h.choose else 0

/-- `PLRScan1D.__init__` (scans.py:497-520): the level. -/
noncomputable def tsLevel (cl nsigmas : Option ℝ) : Except PyErr ℝ :=
  match cl, nsigmas with
  | some c, _ => .ok (chi2Isf (1 - c) 1)
  | none, some n => .ok (n ^ 2)
  | none, none => .error .valueError

/-- `PLRScan1D.cl` (scans.py:522-528) from the level. -/
noncomputable def clOfLevel (level : ℝ) : ℝ := 1 - chi2Sf level 1

/-- `PLRScan2D.__init__` (scans.py:634-659): the level. -/
noncomputable def tsLevel2 (cl nsigmas : Option ℝ) : Except PyErr ℝ :=
  match cl, nsigmas with
  | some c, _ => .ok (chi2Isf (1 - c) 2)
  | none, some n => .ok (chi2Isf (1 - (1 - 2 * normSf n)) 2)
  | none, none => .error .valueError

/-- `PLRScan2D.cl` (scans.py:661-667). -/
noncomputable def clOfLevel2 (level : ℝ) : ℝ := 1 - chi2Sf level 2

/-- The two ends (scans.py:544-553). -/
def ends : List ℝ → Option ℝ × Option ℝ
  | [] => (none, none)
  | [c] => (some c, none)
  | c :: c' :: _ => (some c, some c')

/-- The choice of the central value (scans.py:555-563): the first of the minima where the spline
through the points is smallest. -/
noncomputable def centralValue (L : SplineLib) (key poi : String) (r : SRaster) (order : ℕ) :
    List ℝ → Except PyErr ℝ
  | [] => .error .unmodelled
  | [m] => .ok m
  | m :: ms => do
    let pts ← points key poi r
    let s ← spline pts.1 pts.2 order
    return (pyMin (m, L.eval s m) (ms.map (fun x => (x, L.eval s x)))).1

/-- The last lines (scans.py:564-570). -/
noncomputable def errors (minimum : ℝ) (lo hi : Option ℝ) : ℝ × Option ℝ × Option ℝ :=
  let le := match hi, lo with
    | none, some l => if l > minimum then (none, some l) else (lo, hi)
    | _, _ => (lo, hi)
  (minimum, le.2.map (fun h => h - minimum), le.1.map (fun l => minimum - l))

/-- `PLRScan1D.interval` (scans.py:531-570): central value, positive error, negative error. -/
noncomputable def interval (L : SplineLib) (key poi : String) (r : SRaster) (level : ℝ)
    (order : ℕ := 3) (log_scale : Bool := false) : Except PyErr (ℝ × Option ℝ × Option ℝ) := do
  let cs ← lenOf (← crossings L key poi r level order log_scale)
  let ms ← minima L key poi r (order + 1)
  let m ← centralValue L key poi r order ms
  return errors m (ends cs).1 (ends cs).2

/-- `PLRScan2D.points` (scans.py:669-686). -/
noncomputable def points2 (key poi1 poi2 : String) (r : SRaster) :
    Except PyErr (List ℝ × List ℝ × List ℝ) := do
  let l ← r.mapM (fun e => do
    let x ← Dict.getItem e.1 poi1
    let y ← Dict.getItem e.1 poi2
    let z ← value key e.2
    return (x, y, z))
  return (l.map (·.1), l.map (·.2.1), l.map (·.2.2))

end Scan
end Verif
