import Verif.Spec.Sampling
/-!
# Specification of the limits computed from toys

Written without reference to the model of the script.
-/
namespace Verif.Spec
open Classical

/-- The toys kept by `--truncate-dist`: those at or below the value, if one is given and is not 0. -/
noncomputable def kept (v : Option ℝ) (l : List ℝ) : List ℝ :=
  l.filter fun x => decide (∀ t ∈ v, t ≠ 0 → x ≤ t)

/-- The CLs value of `x` from two collections of toys: the ratio of the mid-p-values, 1 if the second one is 0. -/
noncomputable def toyCls (lsb lb : List ℝ) (x : ℝ) : ℝ := if midP lb x = 0 then 1 else midP lsb x / midP lb x

/-- `v` is the value of rank `k` in the collection (the smallest one has rank 0): it is in it, at most `k` values are below
it, and more than `k` at or below. -/
def HasRank (l : List ℝ) (k : ℕ) (v : ℝ) : Prop := v ∈ l ∧ nBelow l v ≤ k ∧ k < nAtOrBelow l v

/-- The band of order `i`: the value whose rank is the part of the collection below `i` standard deviations of a normal
distribution. -/
noncomputable def IsBand (l : List ℝ) (i : ℤ) (v : ℝ) : Prop := HasRank l ⌊(l.length : ℝ) * normCdf i⌋₊ v

end Verif.Spec
