import Verif.Model.POIMin
/-!
# Specification vocabulary for the POI fits (C20, C21, C42, C43)
-/
namespace Verif.Spec
variable {K : Type} [Field K] [LinearOrder K]

/-- The value is allowed by the bound: at or above the lower end and at or below the upper end,
for the ends that are given. -/
def Allows (b : ParBound K) (v : K) : Prop :=
  (∀ lo, b.min = some lo → lo ≤ v) ∧ (∀ hi, b.max = some hi → v ≤ hi)

/-- The last entry of a dictionary-like list under a name. -/
def lastFor {V : Type} (l : List (String × V)) (n : String) : Option V :=
  ((l.filter (·.1 = n)).getLast?).map Prod.snd

/-- The last bound given for a name. -/
def lastBound (l : List (ParBound K)) (n : String) : Option (ParBound K) :=
  (l.filter (·.par = n)).getLast?

/-- The bound a fit should use for the parameter `n`: zero-width at the hypothesis if `n` is fixed
there, else the last bound given by the user, else the range of the model POI. -/
def effBound (pois : List (PoiRange K)) (bounds : List (ParBound K)) (fixed : Dict K) (n : String) :
    Option (ParBound K) :=
  match lastFor fixed n with
  | some v => some ⟨n, some v, some v⟩
  | none =>
    match lastBound bounds n with
    | some b => some b
    | none => lastBound pois n

/-- The start value the user asked for: the hypothesis value if there is one, else the initial
value. -/
def requested (m : ParModel K) (hypo : Dict K) (init : Pars K) (n : String) : Except PyErr K :=
  match lastFor hypo n with
  | some v => .ok v
  | none => init.get m n

/-- The NP profiling does not touch the POIs (true of `NPMinimizer.profile`, which rebuilds the
point from `hypo.pois`). -/
def KeepsPois (env : FitEnv K) : Prop := ∀ p q, env.profile p = .ok q → q.pois = p.pois

/-- Profiled NLL at a start point. -/
def profNll (env : FitEnv K) (p : Pars K) (v : K) : Prop :=
  ∃ q, env.profile p = .ok q ∧ env.nll q = .ok v

end Verif.Spec
