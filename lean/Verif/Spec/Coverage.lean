import Verif.Model.Toys
import Verif.Model.Sampler
import Mathlib.Probability.HasLaw
import Mathlib.Probability.Independence.Basic
/-!
# Specification: repeated experiments

What "the observed data are drawn like the pseudo-datasets" means.
-/
namespace Verif.Spec
open Verif MeasureTheory ProbabilityTheory

/-- A statistic that may also fail (`None`) or raise is measurable if the event that it takes a value in a given set, and
the event that it fails, have probabilities. -/
def MeasurableStat {X : Type*} [MeasurableSpace X] (stat : X → Except PyErr (Option ℝ)) : Prop :=
  (∀ s : Set ℝ, MeasurableSet s → MeasurableSet {t | ∃ v ∈ s, stat t = .ok (some v)}) ∧
    MeasurableSet {t | stat t = .ok none}

/-- The data of an experiment: `D 0` is the observed dataset and `D 1`, `D 2`, .. are the pseudo-datasets that are
generated, all drawn independently from the distribution `ν`. -/
structure Drawn {Ω X : Type*} [MeasurableSpace Ω] [MeasurableSpace X] (P : Measure Ω) (ν : Measure X)
    (D : ℕ → Ω → X) : Prop where
  indep : iIndepFun D P
  law : ∀ i, HasLaw (D i) ν P

end Verif.Spec
