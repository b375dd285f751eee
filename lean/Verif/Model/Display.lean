import Verif.Model.Scans
import Verif.Model.Sampling
import Verif.Model.FitData
/-!
# What is drawn and printed for a raster

The geometry of the limit plots, of the expected bands and of the plots of pulls and impacts, and the table printed for a
raster.  Colours other than those of the bands, labels and the number format are not modelled.
-/
namespace Verif.Display
open Verif

/-- What `UpperLimitScan.plot` draws (scans.py:451-476): the curve, and for the sampling results a filled band, given by
its two edges at each POI value. -/
structure CurvePlot where
  line : List (ℝ × ℝ)
  band : Option (List (ℝ × ℝ × ℝ))

/-- `UpperLimitScan.plot` (scans.py:471-476).  `up - nom` and `nom - dn` are filled. -/
noncomputable def plotLimit (key poi : String) (r : SRaster) (withErrors : Bool) : Except PyErr CurvePlot := do
  let p0 ← Scan.points key poi r 0
  if withErrors then
    let pu ← Scan.points key poi r 1
    let pd ← Scan.points key poi r (-1)
    return ⟨p0.1.zip p0.2, some (p0.1.zip ((List.zipWith (fun up nom => up - nom) pu.2 p0.2).zip
      (List.zipWith (fun nom dn => nom - dn) p0.2 pd.2)))⟩
  else return ⟨p0.1.zip p0.2, none⟩

/-- A filled area: its two edges, in the order of the hypotheses, and its colour. -/
structure Layer where
  edge1 : List ℝ
  edge2 : List ℝ
  color : String

/-- What `plot_bands` draws: the areas, from the first to the last, and the dashed line over them. -/
structure BandPlot where
  xs : List ℝ
  layers : List Layer
  median : List ℝ

/-- The colours (sampling.py:210). -/
def colors : List String := ["k", "g", "y", "c", "b"]

/-- `bands[i]` for a dict of bands. -/
def getBand (bds : List (ℤ × List ℝ)) (i : ℤ) : Except PyErr (List ℝ) :=
  match bds.find? (fun b => b.1 = i) with
  | some b => .ok b.2
  | none => .error .keyError

/-- The value of the first parameter of a hypothesis (sampling.py:211). -/
def firstValue (hypo : Hypo) : Except PyErr ℝ :=
  match hypo with
  | [] => .error .indexError
  | (_, v) :: _ => .ok v

/-- One call of `fill_between` (sampling.py:214). -/
def bandLayer (bds : List (ℤ × List ℝ)) (i : ℕ) : Except PyErr Layer := do
  let up ← getBand bds i
  let dn ← getBand bds (-i)
  match colors[i]? with
  | some c => return ⟨up, dn, c⟩
  | none => throw .indexError

/-- `SamplesBase.plot_bands` (sampling.py:202-215), given the dict returned by `bands(max_sigma)`; the areas are drawn
from the widest to the narrowest. -/
def plotBands (hypos : List Hypo) (bds : List (ℤ × List ℝ)) (maxSigma : ℕ) : Except PyErr BandPlot := do
  let xs ← hypos.mapM firstValue
  let layers ← ((List.range maxSigma).map (· + 1)).reverse.mapM (bandLayer bds)
  let med ← getBand bds 0
  return ⟨xs, layers, med⟩

/-- A column of the printed table: the key, and whether the values are those of the other raster. -/
structure Col where
  key : String
  other : Bool
deriving DecidableEq

/-- The keys of the table (fit_data.py:640-649); `template` are the p-values of the first entry. -/
def tableKeys (pois : List String) (keys : Option (List String)) (verbosity : ℤ) (template : Dict ℝ) : List String :=
  let v := if keys = none ∧ verbosity = 0 then 1 else verbosity
  if 0 < v then
    pois ++ keys.getD [] ++ (["pv", "cls", "clb"].filter fun k => (template.get? k).isSome) ++
      (if 1 < v then "tmu" :: pois.map ("best_" ++ ·) else [])
  else keys.getD []

/-- The header (fit_data.py:651-653): with another raster, each key that is not a POI has a second column. -/
def tableCols (pois keys : List String) (other : Bool) : List Col :=
  keys.flatMap fun k => ⟨k, false⟩ :: (if other ∧ k ∉ pois then [⟨k, true⟩] else [])

/-- The value of a cell (fit_data.py:657-658). -/
noncomputable def cellValue (h : List String → ℕ) (pois : List String) (r : Raster) (other : Option (List String × Raster))
    (hypo : Hypo) (c : Col) : Except PyErr (Option ℝ) :=
  match c.other, other with
  | true, some o => Raster.keyValue h o.1 o.2 c.key hypo
  | _, _ => Raster.keyValue h pois r c.key hypo

/-- One cell (fit_data.py:657-658); the format of `None` is a `TypeError`. -/
noncomputable def cell (h : List String → ℕ) (pois : List String) (r : Raster) (other : Option (List String × Raster))
    (hypo : Hypo) (c : Col) : Except PyErr ℝ := do
  match ← cellValue h pois r other hypo c with
  | some x => .ok x
  | none => .error .typeError

/-- `Raster.print` (fit_data.py:613-666): the header and the rows; `none` for an empty raster.  `pois` are the POIs of
the raster, `other` the other raster with its POIs.  The text of `verbosity > 2` is not modelled, p-values stored with an
error are not (their first component would be shown). -/
noncomputable def print (h : List String → ℕ) (pois : List String) (r : Raster) (keys : Option (List String))
    (verbosity : ℤ) (other : Option (List String × Raster)) : Except PyErr (Option (List Col × List (List ℝ))) :=
  match r with
  | [] => .ok none
  | e :: _ => do
    let cols := tableCols pois (tableKeys pois keys verbosity e.2.data.pvs) other.isSome
    let rows ← r.mapM fun x => cols.mapM (cell h pois r other x.1)
    return some (cols, rows)

/-- `np.arange(n, 0, -1)`. -/
def downFrom (n : ℕ) : List ℝ := (List.range n).map fun k : ℕ => (n : ℝ) - k

/-- The bars of `fill_betweenx(ys, 0, xs, step='pre')`: between two successive heights, the width given for the second
one. -/
def stepBars : List ℝ → List ℝ → List ((ℝ × ℝ) × ℝ)
  | y0 :: y1 :: ys, _ :: x1 :: xs => ((y1, y0), x1) :: stepBars (y1 :: ys) (x1 :: xs)
  | _, _ => []

/-- One entry of the dictionary of impacts. -/
structure Impact where
  name : String
  bestFit : ℝ
  pos : ℝ
  neg : ℝ

/-- What `plot_impacts` and `plot_pulls` draw: the bars of the two kinds with their lower and upper end and their width,
the labels with their height, and the points. -/
structure ImpactPlot where
  posBars : List ((ℝ × ℝ) × ℝ)
  negBars : List ((ℝ × ℝ) × ℝ)
  labels : List (ℝ × String)
  points : List (ℝ × ℝ)

/-- `PlotImpacts.plot_impacts` (plot_tools.py:260-277) and `plot_pulls` (279-292); `nMax ≥ 0`. -/
noncomputable def plotImpacts (impacts : List Impact) (nMax : ℕ) : ImpactPlot :=
  let l := impacts.take nMax
  let idx := downFrom (l.length + 1)
  ⟨stepBars idx (0 :: l.map (·.pos)), stepBars idx (0 :: l.map (·.neg)),
    (idx.map (· + 1 / 2)).zip ("" :: l.map (·.name)),
    (l.map (·.bestFit)).zip ((downFrom l.length).map (· + 1 / 2))⟩

end Verif.Display
