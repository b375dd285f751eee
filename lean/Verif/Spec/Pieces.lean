import Verif.Model.Core
/-!
# Specification vocabulary for models split into parts (C69, C70, C94, C95)
-/
namespace Verif

/-- The model with only the channels of the list. -/
def Mdl.withChannels {n P : Nat} (m : Mdl n P) (l : List Channel) : Mdl n P := { m with channels := l }

/-- The Hessian of a Gaussian channel is symmetric and has no negative direction. -/
def HessOk (ch : Channel) : Prop :=
  ch.gaussian = true → (∀ i < ch.nbins, ∀ j < ch.nbins, ch.hessian i j = ch.hessian j i) ∧
    ∀ u : Nat → ℝ, 0 ≤ ∑ i ∈ Finset.range ch.nbins, ∑ j ∈ Finset.range ch.nbins, u i * ch.hessian i j * u j

/-- The data from bin `k` on, with the same aux. obs. -/
def Mdl.DataV.from {P : Nat} (d : Mdl.DataV P) (k : Nat) : Mdl.DataV P := ⟨fun b => d.counts (k + b), d.aux_obs⟩

/-- Number of bins of a list of channels. -/
def binsOf (l : List Channel) : Nat := (l.map (·.nbins)).sum

end Verif
