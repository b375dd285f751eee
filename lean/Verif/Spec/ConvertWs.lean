import Verif.Model.ConvertWs
/-!
# What the conversion of a workspace should give

Written in terms of the expected yield `c.expected i` of a bin of the workspace, as a function of the values of all its variables.
-/
namespace Verif
namespace Conv

/-- `q` is the normalisation of a sample of the channel. -/
def IsNorm (c : WSChannel) (q : String) : Prop := ∃ s ∈ c.samples, s.normpar = some q

open Classical in
/-- The values `v`, with all the normalisations of the channel at 0 except possibly one. -/
noncomputable def onlyNorm (c : WSChannel) (keep : Option String) (v : Vals) : Vals :=
  fun q => if IsNorm c q ∧ keep ≠ some q then 0 else v q

/-- The yield of bin `i` when all the samples are switched off. -/
noncomputable def restOf (c : WSChannel) (i : ℕ) (v : Vals) : ℝ := c.expected i (onlyNorm c none v)

open Classical in
/-- The yield attributed to a sample in bin `i`: what is gained when its normalisation alone is switched on; for the default sample, also
what is there without any normalisation. -/
noncomputable def yieldOf (c : WSChannel) (i : ℕ) (s : Fin c.samples.length) (v : Vals) : ℝ :=
  (if c.samples[s].normpar = none then 0 else c.expected i (onlyNorm c c.samples[s].normpar v) - restOf c i v) +
    if (s : ℕ) = c.dflt then restOf c i v else 0

/-- The values `v` with a nuisance parameter moved from its value by `x` times a deviation. -/
noncomputable def moved (v : Vals) (par : NuisPar) (dev : ℝ) : Vals := Function.update v par.name (v par.name + dev)

/-- The impact recorded for a variation that takes the yield of a sample from `yn` to `yv`. -/
def ImpactIs (eps yv yn y : ℝ) : Prop := (yn = 0 ∧ y = 0) ∨ (yn ≠ 0 ∧ eps ≠ 0 ∧ pyPow (yv / yn) (1 / eps) = .ok (1 + y))

/-- The content of a bin. -/
structure BinIs (trim : ℝ → ℝ) (c : WSChannel) (eps : ℝ) (vars : List ℝ) (pars : List NuisPar) (v : Vals) (i : ℕ) (b : BinOut) : Prop where
  nominal : b.nominal = List.ofFn fun s => trim (yieldOf c i s v)
  impacts : List.Forall₂ (fun par d => List.Forall₂ (fun x e => e.1 = x ∧ e.2.length = c.samples.length ∧
    ∀ s : Fin c.samples.length, ImpactIs eps (yieldOf c i s (moved v par (x * (par.error * eps)))) (yieldOf c i s v) (e.2.getD s 0)) vars d)
    pars b.impacts

/-- The expected yield of bin `i` is a sum over the samples, each one proportional to its normalisation, and of a rest; neither the rest
nor the yields `A s` for a unit normalisation depend on the normalisations. -/
structure Additive (c : WSChannel) (i : ℕ) (U : Vals → ℝ) (A : Fin c.samples.length → Vals → ℝ) : Prop where
  sum : ∀ v, c.expected i v = U v + ∑ s : Fin c.samples.length, c.samples[s].normpar.elim 0 v * A s v
  rest : ∀ v w : Vals, (∀ q, ¬ IsNorm c q → v q = w q) → U v = U w
  unit : ∀ s, ∀ v w : Vals, (∀ q, ¬ IsNorm c q → v q = w q) → A s v = A s w

end Conv
end Verif
