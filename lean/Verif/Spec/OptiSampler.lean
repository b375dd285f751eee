import Verif.Model.OptiSampler
import Verif.Spec.Calc
/-!
# Specification vocabulary for `OptiSampler` (C76)
-/
namespace Verif.Spec
open Verif

/-- A sampler whose optimiser never gives up, used under the conditions of C57. -/
structure CleanSampler (c : CalcSetup) (s0 : OptiSampler.St) : Prop where
  clean : CleanUse c s0.min
  succeeds : ∀ env method p fr, (c.opt env method p fr).success = true

/-- The statistic: what `compute` gives for a dataset, with the sampler as it was created. -/
noncomputable def sampled (c : CalcSetup) (cfg : OptiSampler.Cfg) (s0 : OptiSampler.St) (env : SampEnv) :
    Except PyErr (Option ℝ) :=
  outcome (OptiSampler.compute c cfg env s0)

end Verif.Spec
