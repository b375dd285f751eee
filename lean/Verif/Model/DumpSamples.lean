import Verif.Model.Calc
import Verif.Model.CmdLine
import Mathlib.MeasureTheory.Integral.IntervalIntegral.Basic
/-!
# `dump_samples.py`: the histogram of a sampling distribution

`plt.hist` and `scipy.integrate.quad` are modelled by what they compute (counts in equal bins, the integral); the
drawing itself is not modelled.
-/
namespace Verif.Dump
open Verif Verif.Cmd
open Classical

/-- The options of the script (dump_samples.py:35-47); the scale, the model file name and the output file are not
needed here. -/
structure Opts where
  nbins : Int
  xRange : Str
  tValue : Str
  hypo : Str
  reference : Bool

/-- What the script reads: the stored p-values (57), the model (73: an error, or whether one was found), and the
entries `raster.plr_data.values()` of the raster stored in a file, in their order (78-79). -/
structure Env where
  lib : Lib
  samples : List ℝ
  model : Except PyErr Bool
  raster : Str → Except PyErr (List PLRData)

/-- `[ float(p) for p in options.x_range.split(',') ]`, unpacked into two values; every exception becomes
`ValueError` (59-64). -/
noncomputable def parseRange (L : Lib) (s : Str) : Except PyErr (ℝ × ℝ) :=
  match s.splitOn ',' with
  | [a, b] => match L.float a, L.float b with
    | some x, some y => .ok (x, y)
    | _, _ => .error .valueError
  | _ => .error .valueError

/-- The range of the X axis (dump_samples.py:59-69). -/
noncomputable def xRange (L : Lib) (o : Opts) : Except PyErr (ℝ × ℝ) :=
  if o.xRange ≠ [] then parseRange L o.xRange
  else if o.tValue = [] then .ok (0, 1)
  else .ok (-10, 10)

/-- `l[i]` for a Python list. -/
def pyIndex {α : Type} (l : List α) (i : Int) : Except PyErr α :=
  if i < -(l.length : Int) then .error .indexError
  else match l[(if i < 0 then (l.length : Int) + i else i).toNat]? with
    | some x => .ok x
    | none => .error .indexError

/-- `int(index)` (dump_samples.py:77). -/
def toInt (L : Lib) (s : Str) : Except PyErr Int :=
  match L.int s with
  | some i => .ok i
  | none => .error .valueError

/-- The body of the `try` (dump_samples.py:76-80). -/
def readHypo (E : Env) (s : Str) : Except PyErr PLRData := do
  let fi ← unpack2 (s.splitOn ':')
  let i ← toInt E.lib fi.2
  let ds ← E.raster fi.1
  pyIndex ds i

/-- The entry of the hypothesis (dump_samples.py:71-84). -/
def hypoData (E : Env) (o : Opts) : Except PyErr (Option PLRData) :=
  if o.hypo = [] then .ok none
  else do
    let found ← E.model
    if found then
      match readHypo E o.hypo with
      | .ok d => .ok (some d)
      | .error _ => .error .valueError
    else .error .valueError

/-- `q.asymptotic_ts(pv)` for the stored values.  A stored value 0 or 1 gives an infinite statistic, which is not
modelled. -/
noncomputable def convert (f : ℝ → Except PyErr ℝ) (p : ℝ) : Except PyErr ℝ :=
  if 0 < p ∧ p < 1 then f p else .error .unmodelled

/-- What is drawn: the values, and the density if the values are converted (dump_samples.py:90-102). -/
noncomputable def shown (samples : List ℝ) (d : Option PLRData) (o : Opts) :
    Except PyErr (List ℝ × Option (ℝ → Except PyErr ℝ)) :=
  if o.tValue = "q_mu".toList then
    match d with
    | none => .error .valueError
    | some d => do
      let q ← makeQMu d
      let vs ← samples.mapM (convert q.asymptoticTs)
      return (vs, some fun t => q.asymptoticPdf (some t))
  else if o.tValue = "q~mu".toList then
    match d with
    | none => .error .valueError
    | some d => do
      let q ← makeQMuTilda d
      let vs ← samples.mapM (convert q.asymptoticTs)
      return (vs, some fun t => q.asymptoticPdf (some t))
  else .ok (samples, none)

/-- The edges of `n` equal bins. -/
noncomputable def edge (lo hi : ℝ) (n : ℕ) (i : ℕ) : ℝ := lo + i * ((hi - lo) / n)

/-- The number of values in bin `i`: `numpy.histogram` includes the lower edge, and the upper one in the last bin. -/
noncomputable def content (vs : List ℝ) (lo hi : ℝ) (n i : ℕ) : ℕ :=
  vs.countP fun v => edge lo hi n i ≤ v ∧ (v < edge lo hi n (i + 1) ∨ i + 1 = n ∧ v = edge lo hi n (i + 1))

/-- `plt.hist(vs, bins=n, range=[lo, hi])` (`numpy.histogram`): an empty range is widened. -/
noncomputable def histogram (vs : List ℝ) (n : Int) (lo hi : ℝ) : Except PyErr (List ℝ × List ℕ) :=
  if n < 1 ∨ hi < lo then .error .valueError
  else
    let a := if lo = hi then lo - 1/2 else lo
    let b := if lo = hi then hi + 1/2 else hi
    .ok ((List.range (n.toNat + 1)).map (edge a b n.toNat), (List.range n.toNat).map (content vs a b n.toNat))

/-- `quad(f, a, b)[0]`: the integral; an exception of `f` is passed on (which one is not modelled). -/
noncomputable def quad (f : ℝ → Except PyErr ℝ) (a b : ℝ) : Except PyErr ℝ :=
  if ∀ t ∈ Set.uIcc a b, ∃ v, f t = .ok v then .ok (∫ t in a..b, (f t).toOption.getD 0) else .error .unmodelled

/-- The heights of the reference curve at the lower edges `xs` (dump_samples.py:108-111). -/
noncomputable def heights (total : ℕ) (pdf : Option (ℝ → Except PyErr ℝ)) (xs : List ℝ) (dx : ℝ) :
    Except PyErr (List ℝ) :=
  match pdf with
  | some f => xs.mapM fun x => do return (total : ℝ) * (← quad f x (x + dx))
  | none => .ok (xs.map fun _ => (total : ℝ) * dx)

/-- The reference curve (dump_samples.py:104-112): positions and heights. -/
noncomputable def reference (total : ℕ) (pdf : Option (ℝ → Except PyErr ℝ)) (n : Int) (lo hi : ℝ) :
    Except PyErr (List (ℝ × ℝ)) := do
  let xx ← linspace lo hi (n + 1) true
  match xx with
  | x0 :: x1 :: _ =>
    let dx := x1 - x0
    let yy ← heights total pdf xx.dropLast dx
    return (xx.dropLast.map fun x => x + dx / 2).zip yy
  | _ => .error .indexError

/-- What the script draws. -/
structure Plot where
  values : List ℝ
  edges : List ℝ
  counts : List ℕ
  ref : Option (List (ℝ × ℝ))

/-- The reference curve, if it is asked for (dump_samples.py:104). -/
noncomputable def optReference (o : Opts) (total : ℕ) (pdf : Option (ℝ → Except PyErr ℝ)) (lo hi : ℝ) :
    Except PyErr (Option (List (ℝ × ℝ))) :=
  if o.reference then do return some (← reference total pdf o.nbins lo hi) else .ok none

/-- `run` (dump_samples.py:49-115). -/
noncomputable def run (E : Env) (o : Opts) : Except PyErr Plot := do
  let r ← xRange E.lib o
  let d ← hypoData E o
  let s ← shown E.samples d o
  let h ← histogram s.1 o.nbins r.1 r.2
  let ref ← optReference o E.samples.length s.2 r.1 r.2
  return ⟨s.1, h.1, h.2, ref⟩

end Verif.Dump
