import Verif.Spec.POIMin
import Verif.Model.Calc
/-!
# Specification vocabulary for whole computations of the profile likelihood ratio (C67, C68)
-/
namespace Verif.Spec
variable {K : Type} [Field K] [LinearOrder K]

/-- The POI values of the point are allowed in a fit: at the fixed values for the parameters fixed in
this fit, within the user's bounds for the others, within the model range where the user gave none. -/
def InBox (m : ParModel K) (pois : List (PoiRange K)) (bounds : List (ParBound K)) (fixed : Dict K)
    (p : Pars K) : Prop :=
  ∀ n ∈ m.pois, ∀ b, effBound pois bounds fixed n = some b → ∃ w, p.get m n = .ok w ∧ Allows b w

/-- The values of the profiled NLL at the points allowed in a fit (with NPs profiled from the initial
ones). -/
def profNlls (env : FitEnv K) (m : ParModel K) (pois : List (PoiRange K)) (bounds : List (ParBound K))
    (fixed : Dict K) (nps : List K) : Set K :=
  {v | ∃ p : Pars K, p.pois.length = m.pois.length ∧ p.nps = nps ∧ InBox m pois bounds fixed p ∧
    profNll env p v}

/-- The coordinates are inside the box of the bounds handed to the optimiser. -/
def InFreeBox (fr : List (Nat × ParBound K)) (x : List K) : Prop :=
  List.Forall₂ (fun (b : Nat × ParBound K) v => Allows b.2 v) fr x

/-- The optimiser did its job: it reports success, and the smallest value of the objective in its box,
taken at a point of the box. -/
def Optimal (env : FitEnv K) (p0 : Pars K) (fr : List (Nat × ParBound K)) (run : OptRun K) : Prop :=
  run.success = true ∧ InFreeBox fr run.x ∧ (∃ q, evalAt env p0 fr run.x = .ok (run.fn, q)) ∧
  ∀ y v q, InFreeBox fr y → evalAt env p0 fr y = .ok (v, q) → run.fn ≤ v

/-- Both fits of a `tmu` computation are optimal (a fit with no free parameter does not use the
optimiser). -/
def BothOptimal (env : FitEnv K) (m : ParModel K) (pois : List (PoiRange K))
    (bounds : Option (List (ParBound K))) (init : Pars K) (hypo : Dict K) (runH runF : OptRun K) : Prop :=
  ∀ pf bf ph bh, setPois m pois init bounds (some hypo) false = .ok (pf, bf) →
    setPois m pois init (some bf.values) (some hypo) true = .ok (ph, bh) →
    (∀ fr, freeBounds bf = .ok fr → fr ≠ [] → Optimal env pf fr runF) ∧
    (∀ fr, freeBounds bh = .ok fr → fr ≠ [] → Optimal env ph fr runH)

/-- The finite values of the NLL of the model on the data at all parameter points (POIs and NPs) whose
POIs satisfy the condition. -/
def nllsWhere {n P : Nat} (m : Mdl n P) (A : Mdl.Arrays) (d : Mdl.DataV P) (C : (Fin n → ℝ) → Prop) :
    Set ℝ :=
  {v | ∃ (x : Fin n → ℝ) (θ : Fin P → ℝ), C x ∧ m.nll A x θ d = .ok (.fin v)}

/-- The POIs of the model are allowed by the bounds (and fixed values) of a fit. -/
def PoisAllowed {n P : Nat} (m : Mdl n P) (pois : List (PoiRange ℝ)) (bounds : List (ParBound ℝ))
    (fixed : Dict ℝ) (x : Fin n → ℝ) : Prop :=
  ∀ i b, effBound pois bounds fixed (m.pois i) = some b → Allows b (x i)

end Verif.Spec
