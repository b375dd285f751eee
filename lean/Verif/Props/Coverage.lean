import Verif.Lemmas.Coverage
import Verif.Props.Toys
import Mathlib.Probability.HasLawExists
/-!
# C75: coverage of p-values computed from generated samples
-/
namespace Verif.Props
open Verif Verif.Spec Verif.Demo MeasureTheory ProbabilityTheory
open scoped ENNReal NNReal
variable {n P : Nat}

theorem Coverage.toyLaw_prob (m : Mdl n P) (A : Mdl.Arrays) (x : Fin n → ℝ) (θ : Fin P → ℝ) (μ : Measure m.Toy)
    (h : m.toyLaw A x θ = .ok μ) : IsProbabilityMeasure μ := by
  cases hN : m.totBinExp A x θ with
  | error e => simp only [Mdl.toyLaw, hN, bind_error] at h; cases h
  | ok N =>
    obtain ⟨h1, h2⟩ := (c64_refused m A x θ N hN).1.1 ⟨μ, h⟩
    rw [Toys.toyLaw_ok m A x θ N hN h1 h2] at h
    cases h
    infer_instance

section
variable {Ω X : Type*} [MeasurableSpace Ω] [MeasurableSpace X] {Pr : Measure Ω} {ν : Measure X}
  {D : ℕ → Ω → X}

theorem Coverage.seq [IsProbabilityMeasure ν] (hD : Drawn Pr ν D) :
    HasLaw (fun ω i => D i ω) (Measure.infinitePi (fun _ : ℕ => ν)) Pr :=
  hD.indep.hasLaw_infinitePi hD.law (aemeasurable_pi_iff.2 fun i => (hD.law i).aemeasurable)

end

section
variable {Ω : Type*} [MeasurableSpace Ω] {Pr : Measure Ω} {m : Mdl n P} {A : Mdl.Arrays} {x : Fin n → ℝ}
  {θ : Fin P → ℝ} {μ : Measure m.Toy} {D : ℕ → Ω → m.Toy} {stat : Mdl.DataV P → Except PyErr (Option ℝ)}

/-- C75: chance of a small p-value.  Let the observed dataset be drawn like the pseudo-datasets, from the model at any
given parameter point.  Whatever the statistic, the number `ntoys ≥ 1` of pseudo-datasets and the level `α`, the chance
that the observation has a value, generation returns and the p-value obtained is at most `α` is at most
`(2 α ntoys + 1)/(ntoys + 1)` times the chance that the observation has a value. -/
theorem c75_bound (hμ : m.toyLaw A x θ = .ok μ) (hD : Drawn Pr μ D)
    (hs : MeasurableStat fun t => stat (m.toyData t)) (max_tries ntoys : ℕ) (hn : 0 < ntoys) (α : ℝ) (h0 : 0 ≤ α) :
    Pr.real {ω | ∃ v fuel l pv, stat (m.toyData (D 0 ω)) = .ok (some v) ∧
        Sampler.generate (fun i => stat (m.toyData (D (i + 1) ω))) max_tries ntoys fuel = some (.ok l) ∧
        SampDist.pv (SampDist.init ntoys (some l)) v = .ok pv ∧ pv ≤ α} ≤
      (2 * α * ntoys + 1) / (ntoys + 1) * Pr.real {ω | ∃ v, stat (m.toyData (D 0 ω)) = .ok (some v)} := by
  haveI := Coverage.toyLaw_prob m A x θ μ hμ
  haveI := hD.indep.isProbabilityMeasure
  have hl := Coverage.seq hD
  have hb := Coverage.coverage_bound μ hs max_tries ntoys hn α h0
  have eA := hl.measureReal_eq (p := fun d => d ∈ Coverage.Aset (fun t => stat (m.toyData t)) max_tries ntoys α)
    (Coverage.measurableSet_Aset hs max_tries ntoys hn α h0)
  have eB := hl.measureReal_eq (p := fun d => d ∈ Coverage.Bset (fun t => stat (m.toyData t)) max_tries ntoys)
    (Coverage.measurableSet_Bset hs max_tries ntoys)
  have hBle : Pr.real {ω | (fun i => D i ω) ∈ Coverage.Bset (fun t => stat (m.toyData t)) max_tries ntoys} ≤
      Pr.real {ω | ∃ v, stat (m.toyData (D 0 ω)) = .ok (some v)} := measureReal_mono (fun ω hω => hω.1)
  have hb' := ENNReal.toReal_mono (by finiteness) hb
  rw [ENNReal.toReal_mul, ENNReal.toReal_mul, ENNReal.toReal_natCast, ENNReal.toReal_natCast] at hb'
  have hA : Pr.real {ω | (fun i => D i ω) ∈ Coverage.Aset (fun t => stat (m.toyData t)) max_tries ntoys α} =
      Pr.real {ω | ∃ v fuel l pv, stat (m.toyData (D 0 ω)) = .ok (some v) ∧
        Sampler.generate (fun i => stat (m.toyData (D (i + 1) ω))) max_tries ntoys fuel = some (.ok l) ∧
        SampDist.pv (SampDist.init ntoys (some l)) v = .ok pv ∧ pv ≤ α} := rfl
  rw [← hA]
  have hfl : (⌊2 * α * ntoys⌋₊ : ℝ) ≤ 2 * α * ntoys := Nat.floor_le (by positivity)
  rw [div_mul_eq_mul_div, le_div_iff₀ (by positivity), mul_comm]
  change ((ntoys + 1 : ℕ) : ℝ) * (Measure.infinitePi fun _ : ℕ => μ).real _ ≤
    ((⌊2 * α * ntoys⌋₊ + 1 : ℕ) : ℝ) * (Measure.infinitePi fun _ : ℕ => μ).real _ at hb'
  have e1 : (Measure.infinitePi fun _ : ℕ => μ).real (Coverage.Aset (fun t => stat (m.toyData t)) max_tries ntoys α) =
    Pr.real {ω | (fun i => D i ω) ∈ Coverage.Aset (fun t => stat (m.toyData t)) max_tries ntoys α} := eA.symm
  have e2 : (Measure.infinitePi fun _ : ℕ => μ).real (Coverage.Bset (fun t => stat (m.toyData t)) max_tries ntoys) =
    Pr.real {ω | (fun i => D i ω) ∈ Coverage.Bset (fun t => stat (m.toyData t)) max_tries ntoys} := eB.symm
  rw [e1, e2] at hb'
  push_cast at hb'
  refine hb'.trans ?_
  have h3 : 0 ≤ Pr.real {ω | (fun i => D i ω) ∈ Coverage.Bset (fun t => stat (m.toyData t)) max_tries ntoys} :=
    measureReal_nonneg
  have h4 : 0 ≤ 2 * α * ntoys := by positivity
  exact (mul_le_mul_of_nonneg_right (by linarith) h3).trans (mul_le_mul_of_nonneg_left hBle (by linarith))

/-- C75: the same for CLs.  Dividing by the background p-value, whatever the background samples, cannot make small values
more likely. -/
theorem c75_cls_bound (hμ : m.toyLaw A x θ = .ok μ) (hD : Drawn Pr μ D)
    (hs : MeasurableStat fun t => stat (m.toyData t)) (max_tries ntoys : ℕ) (hn : 0 < ntoys) (α : ℝ) (h0 : 0 ≤ α)
    (h : List String → ℕ) (hypo : Hypo) (s : Ω → CLsSamples) :
    Pr.real {ω | ∃ v fuel l lb k cls, stat (m.toyData (D 0 ω)) = .ok (some v) ∧
        Sampler.generate (fun i => stat (m.toyData (D (i + 1) ω))) max_tries ntoys fuel = some (.ok l) ∧
        (s ω).clsb.dists.getItem h hypo = .ok (SampDist.init ntoys (some l)) ∧
        lb ≠ [] ∧ (s ω).cl_b.dists.getItem h hypo = .ok (SampDist.init k (some lb)) ∧
        (s ω).pv h hypo v = .ok cls ∧ cls ≤ α} ≤
      (2 * α * ntoys + 1) / (ntoys + 1) * Pr.real {ω | ∃ v, stat (m.toyData (D 0 ω)) = .ok (some v)} := by
  haveI := hD.indep.isProbabilityMeasure
  refine (measureReal_mono ?_).trans (c75_bound hμ hD hs max_tries ntoys hn α h0)
  rintro ω ⟨v, fuel, l, lb, k, cls, hv, hg, g1, hlb, g2, hc, hle⟩
  have hlen : l.length = ntoys := (c31_returns_requested _ max_tries ntoys fuel l hg).1
  have hne : l ≠ [] := fun h => by rw [h] at hlen; simp at hlen; omega
  obtain ⟨c, hc', -, -, hge, -⟩ := c47_sampled_cls h (s ω) hypo l lb ntoys k hne hlb g1 g2 v
  rw [hc] at hc'
  cases hc'
  exact ⟨v, fuel, l, _, hv, hg, c27_midrank l hne ntoys v, hge.trans hle⟩

/-- C75: generation returns with certainty, if the statistic never raises and has a chance to succeed. -/
theorem c75_returns (hμ : m.toyLaw A x θ = .ok μ) (hD : Drawn Pr μ D)
    (hs : MeasurableStat fun t => stat (m.toyData t)) (hne : ∀ d e, stat d ≠ .error e)
    (hpos : μ {t | ∃ v, stat (m.toyData t) = .ok (some v)} ≠ 0) (max_tries ntoys : ℕ) :
    ∀ᵐ ω ∂Pr, ∃ fuel l,
      Sampler.generate (fun i => stat (m.toyData (D (i + 1) ω))) max_tries ntoys fuel = some (.ok l) := by
  haveI := Coverage.toyLaw_prob m A x θ μ hμ
  haveI := hD.indep.isProbabilityMeasure
  have hl := Coverage.seq hD
  have := Coverage.returns_ae μ hs (fun t e => hne _ e) hpos max_tries ntoys
  rw [← hl.map_eq] at this
  exact ae_of_ae_map hl.aemeasurable this

/-- C75: exact chance of a small p-value, for a statistic that takes each given value with chance 0, never raises and
always succeeds: `(⌊α ntoys⌋ + 1)/(ntoys + 1)`. -/
theorem c75_exact (hμ : m.toyLaw A x θ = .ok μ) (hD : Drawn Pr μ D)
    (hs : MeasurableStat fun t => stat (m.toyData t)) (hok : ∀ d, ∃ v, stat d = .ok (some v))
    (hcont : ∀ v, μ {t | stat (m.toyData t) = .ok (some v)} = 0)
    (max_tries ntoys : ℕ) (hn : 0 < ntoys) (α : ℝ) (h0 : 0 ≤ α) (h1 : α < 1) :
    Pr.real {ω | ∃ v fuel l pv, stat (m.toyData (D 0 ω)) = .ok (some v) ∧
        Sampler.generate (fun i => stat (m.toyData (D (i + 1) ω))) max_tries ntoys fuel = some (.ok l) ∧
        SampDist.pv (SampDist.init ntoys (some l)) v = .ok pv ∧ pv ≤ α} = (⌊α * ntoys⌋₊ + 1) / (ntoys + 1) := by
  haveI := Coverage.toyLaw_prob m A x θ μ hμ
  haveI := hD.indep.isProbabilityMeasure
  have hl := Coverage.seq hD
  have hn' : (0 : ℝ) < ntoys := by exact_mod_cast hn
  have he := Coverage.coverage_exact μ hs max_tries ntoys hn hcont α h0 h1
  have hBu : Measure.infinitePi (fun _ : ℕ => μ) (Coverage.Bset (fun t => stat (m.toyData t)) max_tries ntoys) = 1 := by
    rw [← prob_compl_eq_zero_iff (Coverage.measurableSet_Bset hs max_tries ntoys)]
    have hne : ∀ t e, stat (m.toyData t) ≠ .error e := fun t e h => by
      obtain ⟨v, hv⟩ := hok (m.toyData t); rw [hv] at h; cases h
    have := Coverage.returns_ae μ hs hne (by simp [hok]) max_tries ntoys
    have h2 : ∀ᵐ d ∂Measure.infinitePi (fun _ : ℕ => μ),
        d ∈ Coverage.Bset (fun t => stat (m.toyData t)) max_tries ntoys := by
      filter_upwards [this] with d hd
      exact ⟨hok _, hd⟩
    exact h2
  rw [hBu, mul_one] at he
  have eA := hl.measureReal_eq (p := fun d => d ∈ Coverage.Aset (fun t => stat (m.toyData t)) max_tries ntoys α)
    (Coverage.measurableSet_Aset hs max_tries ntoys hn α h0)
  refine Eq.trans eA ?_
  have he' := congrArg ENNReal.toReal he
  rw [ENNReal.toReal_mul, ENNReal.toReal_natCast, ENNReal.toReal_natCast] at he'
  push_cast at he'
  rw [eq_div_iff (by positivity), mul_comm]
  exact he'

/-- C75 finding F87: the reported p-value is not conservative.  For such a statistic and each `k < ntoys`, the chance of
a p-value up to `k/ntoys` exceeds `k/ntoys`: with `k = 0`, a p-value of exactly 0 has chance `1/(ntoys + 1)`. -/
theorem c75_not_conservative (hμ : m.toyLaw A x θ = .ok μ) (hD : Drawn Pr μ D)
    (hs : MeasurableStat fun t => stat (m.toyData t)) (hok : ∀ d, ∃ v, stat d = .ok (some v))
    (hcont : ∀ v, μ {t | stat (m.toyData t) = .ok (some v)} = 0)
    (max_tries ntoys k : ℕ) (hk : k < ntoys) :
    (k : ℝ) / ntoys < (k + 1) / (ntoys + 1) ∧
    Pr.real {ω | ∃ v fuel l pv, stat (m.toyData (D 0 ω)) = .ok (some v) ∧
        Sampler.generate (fun i => stat (m.toyData (D (i + 1) ω))) max_tries ntoys fuel = some (.ok l) ∧
        SampDist.pv (SampDist.init ntoys (some l)) v = .ok pv ∧ pv ≤ k / ntoys} = (k + 1) / (ntoys + 1) := by
  have hn' : (0 : ℝ) < ntoys := by exact_mod_cast (by omega : 0 < ntoys)
  have hk' : (k : ℝ) < ntoys := by exact_mod_cast hk
  refine ⟨by rw [div_lt_div_iff₀ hn' (by positivity)]; nlinarith, ?_⟩
  rw [c75_exact hμ hD hs hok hcont max_tries ntoys (by omega) (k / ntoys) (by positivity)
    ((div_lt_one hn').2 hk'), div_mul_cancel₀ _ hn'.ne', Nat.floor_natCast]

/-- C75: ties.  Samples equal to the observation count for one half, which is where the factor 2 of the bound comes from:
for a statistic that does not depend on the data the p-value is always 1/2, and the bound at level 1/2 is attained. -/
theorem c75_bound_attained (hμ : m.toyLaw A x θ = .ok μ) (hD : Drawn Pr μ D) (a : ℝ) (hst : ∀ d, stat d = .ok (some a))
    (max_tries ntoys : ℕ) (hn : 0 < ntoys) :
    MeasurableStat (fun t => stat (m.toyData t)) ∧ (2 * (1 / 2 : ℝ) * ntoys + 1) / (ntoys + 1) = 1 ∧
    Pr.real {ω | ∃ v fuel l pv, stat (m.toyData (D 0 ω)) = .ok (some v) ∧
        Sampler.generate (fun i => stat (m.toyData (D (i + 1) ω))) max_tries ntoys fuel = some (.ok l) ∧
        SampDist.pv (SampDist.init ntoys (some l)) v = .ok pv ∧ pv ≤ 1 / 2} = 1 := by
  haveI := hD.indep.isProbabilityMeasure
  have hn' : (0 : ℝ) < ntoys := by exact_mod_cast hn
  refine ⟨⟨fun s _ => ?_, ?_⟩, by rw [div_eq_one_iff_eq (by positivity)]; ring, ?_⟩
  · simp only [hst]; exact MeasurableSet.const _
  · simp only [hst]; exact MeasurableSet.const _
  · have hall : ∀ ω, ω ∈ {ω | ∃ v fuel l pv, stat (m.toyData (D 0 ω)) = .ok (some v) ∧
        Sampler.generate (fun i => stat (m.toyData (D (i + 1) ω))) max_tries ntoys fuel = some (.ok l) ∧
        SampDist.pv (SampDist.init ntoys (some l)) v = .ok pv ∧ pv ≤ 1 / 2} := by
      intro ω
      obtain ⟨l, hl⟩ := c31_returns_if_successful (fun i => stat (m.toyData (D (i + 1) ω))) max_tries ntoys 1
        (fun i e h => by rw [hst] at h; cases h) (fun i => ⟨i, a, le_refl _, by omega, hst _⟩)
      obtain ⟨hlen, k, hk⟩ := c31_returns_requested _ max_tries ntoys 1 l hl
      have hne : l ≠ [] := fun h => by rw [h] at hlen; simp at hlen; omega
      refine ⟨a, 1, l, 1 / 2, hst _, hl, (c27_edges l hne ntoys a).2.2 ?_, le_refl _⟩
      intro y hy
      rw [hk, successes, List.mem_filterMap] at hy
      obtain ⟨i, -, hi⟩ := hy
      rw [hst] at hi
      exact (Option.some.inj hi).symm
    rw [Set.eq_univ_of_forall hall]
    simp

end

/-- Experiments exist for every model and parameter point, and the hypotheses of all the C75 theorems are met: one bin, a
constrained NP, and its aux. obs. as statistic. -/
example : ∃ (A : Mdl.Arrays) (μ : Measure (np1 true false).Toy) (Ω : Type) (_ : MeasurableSpace Ω) (Pr : Measure Ω)
    (D : ℕ → Ω → (np1 true false).Toy) (stat : Mdl.DataV 1 → Except PyErr (Option ℝ)),
    (np1 true false).toyLaw A ![1] ![0] = .ok μ ∧ Drawn Pr μ D ∧
    MeasurableStat (fun t => stat ((np1 true false).toyData t)) ∧ (∀ d, ∃ v, stat d = .ok (some v)) ∧
    (∀ v, μ {t | stat ((np1 true false).toyData t) = .ok (some v)} = 0) := by
  obtain ⟨A, -, hA⟩ := np1_internal true false
  obtain ⟨ne, hne, -⟩ := np1_ne true false hA ![1] ![0]
  obtain ⟨-, -, s3, -⟩ := np1_shapes true false
  have hN : (np1 true false).totBinExp A ![1] ![0] =
      .ok (fun b => ∑ s ∈ Finset.range (np1 true false).maxSamples, ne s b) := by
    simp only [Mdl.totBinExp, hne, bind_ok, pure_ok]
  generalize (fun b => ∑ s ∈ Finset.range (np1 true false).maxSamples, ne s b) = N at hN
  have hμ := Toys.toyLaw_ok (np1 true false) A ![1] ![0] N hN (fun b hb => by rw [s3] at hb; simp at hb)
    (fun p c hc => by
      have : p = 0 := Subsingleton.elim _ _
      subst this
      simp [np1] at hc
      rw [← hc]; norm_num)
  obtain ⟨Ω, mΩ, Pr, D, -, hl, hi, -⟩ := exists_iid ℕ (Toys.lawM (np1 true false) N ![0])
  have hm := Toys.marginal_aux (np1 true false) N ![0] 0
  refine ⟨A, _, Ω, mΩ, Pr, D, fun d => .ok (some (d.aux_obs 0)), hμ, ⟨hi, hl⟩, ⟨fun s hs => ?_, ?_⟩,
    fun d => ⟨_, rfl⟩, fun v => ?_⟩
  · have e : {t : (np1 true false).Toy | ∃ v ∈ s, (Except.ok (some (((np1 true false).toyData t).aux_obs 0)) :
        Except PyErr (Option ℝ)) = .ok (some v)} = (fun t : (np1 true false).Toy => t.2.2 0) ⁻¹' s := by
      ext t; simp [Mdl.toyData]
    rw [e]
    exact hm.measurable hs
  · simp
  · have e : {t : (np1 true false).Toy | (Except.ok (some (((np1 true false).toyData t).aux_obs 0)) :
        Except PyErr (Option ℝ)) = .ok (some v)} = (fun t : (np1 true false).Toy => t.2.2 0) ⁻¹' {v} := by
      ext t; simp [Mdl.toyData]
    rw [e, hm.measure_preimage (measurableSet_singleton v).nullMeasurableSet]
    have e2 : Toys.auxM ((np1 true false).nps 0) ((![0] : Fin 1 → ℝ) 0) = gaussianReal 0 1 := by
      simp [Toys.auxM, np1]
    rw [e2]
    haveI := noAtoms_gaussianReal (μ := 0) (v := 1) one_ne_zero
    exact measure_singleton v

end Verif.Props
