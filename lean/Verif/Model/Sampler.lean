import Verif.Model.Sampling
/-!
# Model of `Sampler.generate` (`/repo/src/fastprof/samplers.py:93-138`)

The outcome of `self.compute(self.model.generate_data(self.gen_hypo), k)` in the `i`-th call is `r i`:
a value, `None` (the computation failed), or an exception.  Progress messages are not modelled.
Python loops have no bound: `fuel` is the number of attempts after which we stop watching, and the
result is then `none` (still running).
-/
namespace Verif.Sampler

/-- One toy: the loop `while not success` (samplers.py:120-132).  `i` is the number of calls made
so far, `ntries` the attempts at this toy.  When `max_tries` is reached the code prints that it
returns a null result, but leaves `success` false and goes on. -/
def toy (r : ℕ → Except PyErr (Option ℝ)) (max_tries : ℕ) :
    ℕ → ℕ → ℕ → Option (Except PyErr (ℝ × ℕ))
  | 0, _, _ => none
  | fuel + 1, i, ntries =>
    match r i with
    | .error e => some (.error e)
    | .ok (some v) => some (.ok (v, i + 1))
    | .ok none =>
      if ntries + 1 < max_tries then
        /- 'failed, repeating it' -/
        toy r max_tries fuel (i + 1) (ntries + 1)
      else
        /- 'max number of tries reached -- returning null result' -/
        toy r max_tries fuel (i + 1) (ntries + 1)

/-- The loop over toys (samplers.py:114-133): `k` toys are done out of `k + todo`, their results
stored in the array `samples`, which starts as zeros. -/
def toys (r : ℕ → Except PyErr (Option ℝ)) (max_tries fuel : ℕ) :
    ℕ → ℕ → ℕ → List ℝ → Option (Except PyErr (List ℝ))
  | 0, _, _, samples => some (.ok samples)
  | todo + 1, k, i, samples =>
    match toy r max_tries fuel i 0 with
    | none => none
    | some (.error e) => some (.error e)
    | some (.ok (v, i')) => toys r max_tries fuel todo (k + 1) i' (samples.set k v)

/-- `Sampler.generate` (samplers.py:93-138): the samples, not sorted. -/
noncomputable def generate (r : ℕ → Except PyErr (Option ℝ)) (max_tries ntoys fuel : ℕ) :
    Option (Except PyErr (List ℝ)) :=
  toys r max_tries fuel ntoys 0 0 (SampDist.init ntoys none)

end Verif.Sampler
