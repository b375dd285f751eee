import Verif.Model.Scans
import Mathlib.Topology.Order.IntermediateValue
import Mathlib.Analysis.Calculus.Deriv.Basic
/-!
# What `scipy.interpolate.InterpolatedUnivariateSpline` is documented to do
-/
namespace Verif

/-- The range covered by the points of a spline. -/
def Spl.InRange (s : Spl) (x : ℝ) : Prop := (∃ a ∈ s.xs, a ≤ x) ∧ (∃ b ∈ s.xs, x ≤ b)

/-- Documented behaviour of scipy's interpolating splines, for objects that were built successfully:
they are continuous and go through all points; for cubic splines, `roots()` lists in increasing
order zeros within the range of the points, all of them if there are finitely many; for quartic
splines, the roots of the derivative are points within the range where the derivative is 0. -/
structure SplineLib.Correct (L : SplineLib) : Prop where
  interp : ∀ xs ys k s, Scan.spline xs ys k = .ok s → ∀ p ∈ xs.zip ys, L.eval s p.1 = p.2
  cont : ∀ xs ys k s, Scan.spline xs ys k = .ok s → Continuous (L.eval s)
  roots_sound : ∀ xs ys s, Scan.spline xs ys 3 = .ok s → ∀ x ∈ L.roots s, s.InRange x ∧ L.eval s x = 0
  roots_complete : ∀ xs ys s, Scan.spline xs ys 3 = .ok s → {x | s.InRange x ∧ L.eval s x = 0}.Finite →
    ∀ x, s.InRange x → L.eval s x = 0 → x ∈ L.roots s
  roots_sorted : ∀ xs ys s, Scan.spline xs ys 3 = .ok s → (L.roots s).Pairwise (· < ·)
  stationary_sound : ∀ xs ys s, Scan.spline xs ys 4 = .ok s → ∀ x ∈ L.stationary s,
    s.InRange x ∧ HasDerivAt (L.eval s) 0 x

end Verif
