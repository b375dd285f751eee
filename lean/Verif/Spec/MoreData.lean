import Verif.Model.Core
/-! # The model for more data -/
namespace Verif

/-- The channel with all nominal yields multiplied by `k`: everything else is as before. -/
noncomputable def Channel.times (k : ℝ) (ch : Channel) : Channel :=
  { ch with samples := ch.samples.map fun s => { s with nominal_yields := s.nominal_yields.map fun y => k * y } }

/-- The model for `k` times the data. -/
noncomputable def Mdl.times {n P : Nat} (m : Mdl n P) (k : ℝ) : Mdl n P := { m with channels := m.channels.map (Channel.times k) }

end Verif
