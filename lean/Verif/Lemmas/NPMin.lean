import Verif.Model.NPMin
import Verif.Spec.NPMin
import Verif.Lemmas.NLLVal
import Verif.Lemmas.Yields
import Mathlib.Analysis.Matrix.Order
import Mathlib.Analysis.Matrix.Spectrum
/-! Derivatives of the NLL with respect to the NPs, and the quadratic problem solved by `profile`. -/
namespace Verif
namespace Mdl
open Filter Topology
variable {n P : Nat}

/-- Bilinear form of the Gaussian bins. -/
noncomputable def bil (m : Mdl n P) (u v : Nat → ℝ) : ℝ :=
  ∑ i ∈ Finset.range m.nbinsGaussian, ∑ j ∈ Finset.range m.nbinsGaussian, u i * m.poiHessian i j * v j

theorem bil_symm {m : Mdl n P} (h : m.HSymm) (u v : Nat → ℝ) : m.bil u v = m.bil v u := by
  simp only [bil]
  rw [Finset.sum_comm]
  refine Finset.sum_congr rfl (fun i hi => Finset.sum_congr rfl (fun j hj => ?_))
  rw [h j (Finset.mem_range.1 hj) i (Finset.mem_range.1 hi)]; ring

theorem hasGrad_bil {ι : Type} [Fintype ι] (m : Mdl n P) {u v : Nat → (ι → ℝ) → ℝ} {U V : Nat → ι → ℝ} {y : ι → ℝ}
    (hu : ∀ i, HasGrad (u i) (U i) y) (hv : ∀ i, HasGrad (v i) (V i) y) :
    HasGrad (fun z => m.bil (fun i => u i z) (fun i => v i z))
      (fun a => m.bil (fun i => U i a) (fun i => v i y) + m.bil (fun i => u i y) (fun i => V i a)) y := by
  have := HasGrad.finset_sum (Finset.range m.nbinsGaussian)
    (fun i z => ∑ j ∈ Finset.range m.nbinsGaussian, u i z * m.poiHessian i j * v j z)
    (fun i a => ∑ j ∈ Finset.range m.nbinsGaussian, (U i a * m.poiHessian i j * v j y + u i y * m.poiHessian i j * V j a)) (x := y)
    (fun i _ => HasGrad.finset_sum (Finset.range m.nbinsGaussian)
      (fun j z => u i z * m.poiHessian i j * v j z)
      (fun j a => U i a * m.poiHessian i j * v j y + u i y * m.poiHessian i j * V j a)
      (fun j _ => by
        have h1 := ((hu i).mul (hasGrad_const (m.poiHessian i j) y)).mul (hv j)
        simpa using h1))
  simp only [bil, ← Finset.sum_add_distrib]
  exact this

theorem constraintTerm_eq (m : Mdl n P) (θ : Fin P → ℝ) (d : DataV P) :
    m.constraintTerm θ d = (1 / 2) * ∑ p, (m.nps p).constraintWeight * ((θ p - d.aux_obs p) * (θ p - d.aux_obs p)) := by
  simp only [constraintTerm, constraintHessian, dotProduct, Matrix.mulVec_diagonal]
  congr 1
  refine Finset.sum_congr rfl (fun p _ => by ring)

theorem constraintTerm_hasGrad (m : Mdl n P) (θ : Fin P → ℝ) (d : DataV P) :
    HasGrad (fun z => m.constraintTerm z d)
      (fun a => (m.nps a).constraintWeight * (θ a - d.aux_obs a)) θ := by
  have h := (HasGrad.finset_sum (x := θ) Finset.univ
    (fun p (z : Fin P → ℝ) => (m.nps p).constraintWeight * ((z p - d.aux_obs p) * (z p - d.aux_obs p))) _
    (fun p _ => by
      have h0 := (hasGrad_proj p θ).sub (hasGrad_const (d.aux_obs p) θ)
      exact (h0.mul h0).const_mul (m.nps p).constraintWeight)).const_mul (1 / 2)
  have e : (fun z => m.constraintTerm z d) = fun z => (1 / 2) * ∑ p, (m.nps p).constraintWeight *
      ((z p - d.aux_obs p) * (z p - d.aux_obs p)) := funext fun z => m.constraintTerm_eq z d
  rw [e]
  convert h using 1
  funext a
  simp only [Pi.zero_apply, sub_zero, ite_mul, mul_ite, one_mul, zero_mul, mul_one, mul_zero]
  rw [Finset.sum_eq_single a]
  · simp; ring
  · intro b _ hb; simp [Ne.symm hb]
  · intro h; exact absurd (Finset.mem_univ a) h

/-- Gradient of the NLL for yields `T` with gradients `J`. -/
noncomputable def npGrad (m : Mdl n P) (d : DataV P) (T : Nat → (Fin P → ℝ) → ℝ)
    (J : Nat → (Fin P → ℝ) → Fin P → ℝ) (θ : Fin P → ℝ) (a : Fin P) : ℝ :=
  (∑ b ∈ Finset.range m.nbinsPoisson, (J b θ a - divOr0 (J b θ a) (T b θ) * d.counts b)) +
  m.bil (fun i => J (m.nbinsPoisson + i) θ a)
    (fun i => T (m.nbinsPoisson + i) θ - d.counts (m.nbinsPoisson + i)) +
  (m.nps a).constraintWeight * (θ a - d.aux_obs a)

theorem nll_np_hasGrad {m : Mdl n P} (hS : m.HSymm) {d : DataV P} {T : Nat → (Fin P → ℝ) → ℝ}
    {J : Nat → (Fin P → ℝ) → Fin P → ℝ} {θ : Fin P → ℝ}
    (hg : ∀ b, HasGrad (T b) (J b θ) θ) (hp : ∀ b < m.nbinsPoisson, 0 < T b θ) :
    HasGrad (fun z => m.nllVal (fun b => T b z) z d false) (m.npGrad d T J θ) θ := by
  have h1 := poisson_hasGrad (c := d.counts) (fun b _ => hg b) hp
  have h2 := (hasGrad_bil m
    (fun i => (hg (m.nbinsPoisson + i)).sub (hasGrad_const (d.counts (m.nbinsPoisson + i)) θ))
    (fun i => (hg (m.nbinsPoisson + i)).sub (hasGrad_const (d.counts (m.nbinsPoisson + i)) θ))).const_mul (1 / 2)
  have h3 := (h1.add h2).add (m.constraintTerm_hasGrad θ d)
  have h4 : HasGrad (fun z => m.nllVal (fun b => T b z) z d false) _ θ := h3.congr
    (Eventually.of_forall fun z => by simp only [nllVal, quad, bil, Bool.false_eq_true, if_false])
  convert h4 using 1
  funext a
  simp only [npGrad, Pi.zero_apply, sub_zero]
  rw [bil_symm hS (fun i => T (m.nbinsPoisson + i) θ - _)]
  ring

theorem npGrad_hasGrad {m : Mdl n P} {d : DataV P} {T : Nat → (Fin P → ℝ) → ℝ}
    {J : Nat → (Fin P → ℝ) → Fin P → ℝ} {K : Nat → Fin P → Fin P → ℝ} {θ : Fin P → ℝ}
    (hg : ∀ b, HasGrad (T b) (J b θ) θ) (hp : ∀ b < m.nbinsPoisson, 0 < T b θ) (j : Fin P)
    (hh : ∀ b, HasGrad (fun z => J b z j) (fun i => K b i j) θ) :
    HasGrad (fun z => m.npGrad d T J z j)
      (fun i => (∑ b ∈ Finset.range m.nbinsPoisson, (K b i j - (divOr0 (K b i j) (T b θ) -
          divOr0 (J b θ i) (T b θ) * divOr0 (J b θ j) (T b θ)) * d.counts b)) +
        (m.bil (fun l => K (m.nbinsPoisson + l) i j)
            (fun l => T (m.nbinsPoisson + l) θ - d.counts (m.nbinsPoisson + l)) +
          m.bil (fun l => J (m.nbinsPoisson + l) θ j) (fun l => J (m.nbinsPoisson + l) θ i)) +
        m.constraintHessian i j) θ := by
  have h1 := poisson_grad_hasGrad (c := d.counts) (fun b (_ : b < m.nbinsPoisson) => hg b) hp (fun b _ => hh b)
  have h2 := hasGrad_bil m (fun i => hh (m.nbinsPoisson + i))
    (fun i => (hg (m.nbinsPoisson + i)).sub (hasGrad_const (d.counts (m.nbinsPoisson + i)) θ))
  have h3 := ((hasGrad_proj j θ).sub (hasGrad_const (d.aux_obs j) θ)).const_mul (m.nps j).constraintWeight
  have h4 : HasGrad (fun z => m.npGrad d T J z j) _ θ := (h1.add h2).add h3
  convert h4 using 1
  funext i
  simp only [Pi.zero_apply, sub_zero, constraintHessian, Matrix.diagonal_apply]
  congr 1
  by_cases h : i = j <;> simp [h]

theorem hasGrad_lin (c : Fin P → ℝ) (θ0 θ : Fin P → ℝ) :
    HasGrad (fun z => ∑ a : Fin P, c a * (z a - θ0 a)) c θ := by
  have h := HasGrad.finset_sum (x := θ) Finset.univ (fun p (z : Fin P → ℝ) => c p * (z p - θ0 p)) _
    (fun p _ => ((hasGrad_proj p θ).sub (hasGrad_const (θ0 p) θ)).const_mul (c p))
  convert h using 1
  funext a
  simp

theorem linY_hasGrad (m : Mdl n P) (ne : Nat → Nat → ℝ) (I : Nat → Nat → Nat → ℝ) (θ0 : Fin P → ℝ)
    (b : Nat) (θ : Fin P → ℝ) :
    HasGrad (m.linY ne I θ0 b) (fun a => ∑ s ∈ Finset.range m.maxSamples, ne s b * I s b a) θ := by
  have h := HasGrad.finset_sum (x := θ) (Finset.range m.maxSamples)
    (fun s (z : Fin P → ℝ) => ne s b * (1 + ∑ a : Fin P, I s b a * (z a - θ0 a))) _
    (fun s _ => ((hasGrad_const 1 θ).add (hasGrad_lin (fun a => I s b a) θ0 θ)).const_mul (ne s b))
  have h4 : HasGrad (m.linY ne I θ0 b) _ θ := h
  convert h4 using 1
  funext a
  simp

theorem expY_hasGrad (m : Mdl n P) (ne : Nat → Nat → ℝ) (I : Nat → Nat → Nat → ℝ) (θ0 : Fin P → ℝ)
    (b : Nat) (θ : Fin P → ℝ) :
    HasGrad (m.expY ne I θ0 b) (fun a => ∑ s ∈ Finset.range m.maxSamples,
      ne s b * (Real.exp (∑ a : Fin P, I s b a * (θ a - θ0 a)) * I s b a)) θ :=
  HasGrad.finset_sum (x := θ) (Finset.range m.maxSamples)
    (fun s (z : Fin P → ℝ) => ne s b * Real.exp (∑ a : Fin P, I s b a * (z a - θ0 a))) _
    (fun s _ => ((hasGrad_lin (fun a => I s b a) θ0 θ).exp).const_mul (ne s b))

theorem expY_grad_hasGrad (m : Mdl n P) (ne : Nat → Nat → ℝ) (I : Nat → Nat → Nat → ℝ) (θ0 : Fin P → ℝ)
    (b : Nat) (θ : Fin P → ℝ) (j : Fin P) :
    HasGrad (fun z => ∑ s ∈ Finset.range m.maxSamples,
      ne s b * (Real.exp (∑ a : Fin P, I s b a * (z a - θ0 a)) * I s b j))
      (fun i => ∑ s ∈ Finset.range m.maxSamples,
        ne s b * (Real.exp (∑ a : Fin P, I s b a * (θ a - θ0 a)) * I s b i * I s b j)) θ := by
  refine HasGrad.finset_sum (x := θ) (Finset.range m.maxSamples)
    (fun s (z : Fin P → ℝ) => ne s b * (Real.exp (∑ a : Fin P, I s b a * (z a - θ0 a)) * I s b j)) _
    (fun s _ => ?_)
  have h := (((hasGrad_lin (fun a => I s b a) θ0 θ).exp).mul (hasGrad_const (I s b j) θ)).const_mul (ne s b)
  simpa using h

theorem linY_self (m : Mdl n P) (ne : Nat → Nat → ℝ) (I : Nat → Nat → Nat → ℝ) (θ0 : Fin P → ℝ) (b : Nat) :
    m.linY ne I θ0 b θ0 = ∑ s ∈ Finset.range m.maxSamples, ne s b := by simp [linY]

theorem expY_self (m : Mdl n P) (ne : Nat → Nat → ℝ) (I : Nat → Nat → Nat → ℝ) (θ0 : Fin P → ℝ) (b : Nat) :
    m.expY ne I θ0 b θ0 = ∑ s ∈ Finset.range m.maxSamples, ne s b := by simp [expY]

/-- What a successful `pq` computes. -/
theorem pq_inv {m : Mdl n P} {A : Arrays} {x : Fin n → ℝ} {θ : Fin P → ℝ} {d : DataV P} {s : PQ P}
    (h : m.pq A x θ d = .ok s) :
    ∃ ne, m.nExp A x θ = .ok ne ∧ m.linearImpacts A θ = .ok A.sym ∧
      (0 < P → ∀ i < m.nbinsPoisson, ∑ k ∈ Finset.range m.maxSamples, ne k i ≠ 0) ∧
      s.p = (m.pqPoisson ne d.counts A.sym).p + (m.pqGaussian ne d.counts A.sym).p + m.constraintHessian ∧
      s.q = (m.pqPoisson ne d.counts A.sym).q + (m.pqGaussian ne d.counts A.sym).q +
        m.constraintHessian.mulVec (fun a => θ a - d.aux_obs a) := by
  simp only [pq] at h
  obtain ⟨ne, hne, h⟩ := bind_eq_ok.1 h
  obtain ⟨I, hI, h⟩ := bind_eq_ok.1 h
  have hI' : I = A.sym := by
    simp only [linearImpacts] at hI
    split_ifs at hI <;> exact (Except.ok.inj hI).symm
  subst hI'
  by_cases hz : 0 < P ∧ ∃ i < m.nbinsPoisson, ∑ k ∈ Finset.range m.maxSamples, ne k i = 0
  · rw [if_pos hz] at h; simp at h
  · rw [if_neg hz] at h
    simp only [pure_ok, bind_ok] at h
    have h := (Except.ok.inj h).symm
    subst h
    refine ⟨ne, hne, hI, fun hP i hi h0 => hz ⟨hP, i, hi, h0⟩, rfl, rfl⟩

theorem pq_ok {m : Mdl n P} {A : Arrays} {x : Fin n → ℝ} {θ : Fin P → ℝ} (d : DataV P) {ne}
    (hne : m.nExp A x θ = .ok ne) (hI : m.use_simple_sym_impacts = true ∨ θ = 0)
    (hz : ∀ i < m.nbinsPoisson, ∑ k ∈ Finset.range m.maxSamples, ne k i ≠ 0) :
    ∃ s, m.pq A x θ d = .ok s := by
  have hI' : m.linearImpacts A θ = .ok A.sym := by
    simp only [linearImpacts]
    rcases hI with h | h
    · simp [h]
    · simp [h]
  simp only [pq, hne, hI', bind_ok]
  rw [if_neg (fun h => by obtain ⟨_, i, hi, h0⟩ := h; exact hz i hi h0)]
  exact ⟨_, rfl⟩

theorem ratio_sum (m : Mdl n P) (ne : Nat → Nat → ℝ) (I : Nat → Nat → Nat → ℝ) (t : ℝ) (b : Nat) (a : Fin P) :
    ∑ k ∈ Finset.range m.maxSamples, ne k b / t * I k b a =
      (∑ k ∈ Finset.range m.maxSamples, ne k b * I k b a) / t := by
  rw [div_eq_mul_inv, Finset.sum_mul]
  exact Finset.sum_congr rfl (fun k _ => by ring)

/-- `Q` is the gradient of the NLL of any yields with the right value and Jacobian at `θ0`. -/
theorem q_eq {m : Mdl n P} {d : DataV P} {ne : Nat → Nat → ℝ} {I : Nat → Nat → Nat → ℝ}
    {θ0 : Fin P → ℝ} {T : Nat → (Fin P → ℝ) → ℝ} {J : Nat → (Fin P → ℝ) → Fin P → ℝ}
    (hT : ∀ b, T b θ0 = ∑ s ∈ Finset.range m.maxSamples, ne s b)
    (hJ : ∀ b a, J b θ0 a = ∑ s ∈ Finset.range m.maxSamples, ne s b * I s b a)
    (hz : ∀ b < m.nbinsPoisson, ∑ s ∈ Finset.range m.maxSamples, ne s b ≠ 0) :
    (m.pqPoisson ne d.counts I).q + (m.pqGaussian ne d.counts I).q +
        m.constraintHessian.mulVec (fun a => θ0 a - d.aux_obs a) = m.npGrad d T J θ0 := by
  funext a
  simp only [Pi.add_apply, pqPoisson, pqGaussian, npGrad, constraintHessian, Matrix.mulVec_diagonal, bil,
    hT, hJ]
  congr 2
  refine Finset.sum_congr rfl (fun b hb => ?_)
  have := hz b (Finset.mem_range.1 hb)
  rw [ratio_sum, divOr0_of_ne this]
  field_simp

/-- `P` is the Hessian, without the lognormal terms and for yields without second derivatives. -/
theorem p_lin_eq {m : Mdl n P} (hS : m.HSymm) {d : DataV P} {ne : Nat → Nat → ℝ}
    {I : Nat → Nat → Nat → ℝ} (hl : m.use_lognormal_terms = false)
    (hz : ∀ b < m.nbinsPoisson, ∑ s ∈ Finset.range m.maxSamples, ne s b ≠ 0) (i j : Fin P) :
    ((m.pqPoisson ne d.counts I).p + (m.pqGaussian ne d.counts I).p + m.constraintHessian) i j =
    (∑ b ∈ Finset.range m.nbinsPoisson,
      (0 - (divOr0 0 (∑ s ∈ Finset.range m.maxSamples, ne s b) -
          divOr0 (∑ s ∈ Finset.range m.maxSamples, ne s b * I s b i) (∑ s ∈ Finset.range m.maxSamples, ne s b) *
          divOr0 (∑ s ∈ Finset.range m.maxSamples, ne s b * I s b j) (∑ s ∈ Finset.range m.maxSamples, ne s b))
        * d.counts b)) +
        (m.bil (fun _ => 0) (fun l => (∑ s ∈ Finset.range m.maxSamples, ne s (m.nbinsPoisson + l)) -
            d.counts (m.nbinsPoisson + l)) +
          m.bil (fun l => ∑ s ∈ Finset.range m.maxSamples, ne s (m.nbinsPoisson + l) * I s (m.nbinsPoisson + l) j)
            (fun l => ∑ s ∈ Finset.range m.maxSamples, ne s (m.nbinsPoisson + l) * I s (m.nbinsPoisson + l) i)) +
        m.constraintHessian i j := by
  rw [bil_symm hS (fun l => ∑ s ∈ Finset.range m.maxSamples, ne s (m.nbinsPoisson + l) * I s (m.nbinsPoisson + l) j)]
  rw [Matrix.add_apply, Matrix.add_apply]
  simp only [pqPoisson, pqGaussian, hl, Bool.false_eq_true, if_false, add_zero]
  have h0 : ∀ v, m.bil (fun _ => 0) v = 0 := fun v => by simp [bil]
  rw [h0, zero_add]
  refine congrArg (· + _) (congrArg₂ (· + ·) (Finset.sum_congr rfl (fun b hb => ?_)) rfl)
  have := hz b (Finset.mem_range.1 hb)
  rw [ratio_sum, ratio_sum, divOr0_of_ne this, divOr0_of_ne this, divOr0_of_ne this]
  ring

/-- `P` is the Hessian with the lognormal terms, for exponentiated impacts and Poisson channels. -/
theorem p_log_eq {m : Mdl n P} {d : DataV P} {ne : Nat → Nat → ℝ}
    {I : Nat → Nat → Nat → ℝ} (hl : m.use_lognormal_terms = true) (hG : m.nbinsGaussian = 0)
    (hz : ∀ b < m.nbinsPoisson, ∑ s ∈ Finset.range m.maxSamples, ne s b ≠ 0) (i j : Fin P) :
    ((m.pqPoisson ne d.counts I).p + (m.pqGaussian ne d.counts I).p + m.constraintHessian) i j =
    (∑ b ∈ Finset.range m.nbinsPoisson,
      ((∑ s ∈ Finset.range m.maxSamples, ne s b * I s b i * I s b j) -
        (divOr0 (∑ s ∈ Finset.range m.maxSamples, ne s b * I s b i * I s b j) (∑ s ∈ Finset.range m.maxSamples, ne s b) -
          divOr0 (∑ s ∈ Finset.range m.maxSamples, ne s b * I s b i) (∑ s ∈ Finset.range m.maxSamples, ne s b) *
          divOr0 (∑ s ∈ Finset.range m.maxSamples, ne s b * I s b j) (∑ s ∈ Finset.range m.maxSamples, ne s b))
        * d.counts b)) + m.constraintHessian i j := by
  rw [Matrix.add_apply, Matrix.add_apply]
  simp only [pqPoisson, pqGaussian, hl, if_true, hG, Finset.range_zero, Finset.sum_empty,
    Finset.sum_const_zero, mul_zero, add_zero]
  refine congrArg (· + _) ?_
  rw [Finset.sum_comm, ← Finset.sum_add_distrib]
  refine Finset.sum_congr rfl (fun b hb => ?_)
  have := hz b (Finset.mem_range.1 hb)
  rw [ratio_sum, ratio_sum, divOr0_of_ne this, divOr0_of_ne this, divOr0_of_ne this]
  have e : ∑ k ∈ Finset.range m.maxSamples, ne k b / (∑ s ∈ Finset.range m.maxSamples, ne s b) *
      ((∑ s ∈ Finset.range m.maxSamples, ne s b) - d.counts b) * I k b i * I k b j =
      ((∑ s ∈ Finset.range m.maxSamples, ne s b) - d.counts b) / (∑ s ∈ Finset.range m.maxSamples, ne s b) *
      ∑ s ∈ Finset.range m.maxSamples, ne s b * I s b i * I s b j := by
    rw [Finset.mul_sum]
    exact Finset.sum_congr rfl (fun k _ => by ring)
  rw [e]
  field_simp
  ring

/-- `P` with the lognormal terms for all channels: the term of the Gaussian bins is there twice. -/
theorem p_log_gen {m : Mdl n P} (hS : m.HSymm) {d : DataV P} {ne : Nat → Nat → ℝ}
    {I : Nat → Nat → Nat → ℝ} (hl : m.use_lognormal_terms = true)
    (hz : ∀ b < m.nbinsPoisson, ∑ s ∈ Finset.range m.maxSamples, ne s b ≠ 0) (i j : Fin P) :
    ((m.pqPoisson ne d.counts I).p + (m.pqGaussian ne d.counts I).p + m.constraintHessian) i j =
    (∑ b ∈ Finset.range m.nbinsPoisson,
      ((∑ s ∈ Finset.range m.maxSamples, ne s b * I s b i * I s b j) -
        (divOr0 (∑ s ∈ Finset.range m.maxSamples, ne s b * I s b i * I s b j) (∑ s ∈ Finset.range m.maxSamples, ne s b) -
          divOr0 (∑ s ∈ Finset.range m.maxSamples, ne s b * I s b i) (∑ s ∈ Finset.range m.maxSamples, ne s b) *
          divOr0 (∑ s ∈ Finset.range m.maxSamples, ne s b * I s b j) (∑ s ∈ Finset.range m.maxSamples, ne s b))
        * d.counts b)) +
      (m.bil (fun l => ∑ s ∈ Finset.range m.maxSamples,
            ne s (m.nbinsPoisson + l) * I s (m.nbinsPoisson + l) i * I s (m.nbinsPoisson + l) j)
          (fun l => (∑ s ∈ Finset.range m.maxSamples, ne s (m.nbinsPoisson + l)) - d.counts (m.nbinsPoisson + l)) +
        m.bil (fun l => ∑ s ∈ Finset.range m.maxSamples, ne s (m.nbinsPoisson + l) * I s (m.nbinsPoisson + l) j)
            (fun l => ∑ s ∈ Finset.range m.maxSamples, ne s (m.nbinsPoisson + l) * I s (m.nbinsPoisson + l) i)) +
      m.constraintHessian i j +
      m.bil (fun l => ∑ s ∈ Finset.range m.maxSamples,
            ne s (m.nbinsPoisson + l) * I s (m.nbinsPoisson + l) i * I s (m.nbinsPoisson + l) j)
          (fun l => (∑ s ∈ Finset.range m.maxSamples, ne s (m.nbinsPoisson + l)) - d.counts (m.nbinsPoisson + l)) := by
  rw [bil_symm hS (fun l => ∑ s ∈ Finset.range m.maxSamples, ne s (m.nbinsPoisson + l) * I s (m.nbinsPoisson + l) j)]
  have hg : (m.pqGaussian ne d.counts I).p i j =
      m.bil (fun l => ∑ s ∈ Finset.range m.maxSamples, ne s (m.nbinsPoisson + l) * I s (m.nbinsPoisson + l) i)
        (fun l => ∑ s ∈ Finset.range m.maxSamples, ne s (m.nbinsPoisson + l) * I s (m.nbinsPoisson + l) j) +
      2 * m.bil (fun l => ∑ s ∈ Finset.range m.maxSamples,
            ne s (m.nbinsPoisson + l) * I s (m.nbinsPoisson + l) i * I s (m.nbinsPoisson + l) j)
          (fun l => (∑ s ∈ Finset.range m.maxSamples, ne s (m.nbinsPoisson + l)) - d.counts (m.nbinsPoisson + l)) := by
    simp only [pqGaussian, hl, if_true, bil]
    congr 2
    rw [Finset.sum_comm]
    refine Finset.sum_congr rfl fun u _ => ?_
    rw [Finset.sum_comm]
    refine Finset.sum_congr rfl fun w _ => ?_
    rw [Finset.sum_mul, Finset.sum_mul]
    exact Finset.sum_congr rfl fun k _ => by ring
  have hp : (m.pqPoisson ne d.counts I).p i j = (∑ b ∈ Finset.range m.nbinsPoisson,
      ((∑ s ∈ Finset.range m.maxSamples, ne s b * I s b i * I s b j) -
        (divOr0 (∑ s ∈ Finset.range m.maxSamples, ne s b * I s b i * I s b j) (∑ s ∈ Finset.range m.maxSamples, ne s b) -
          divOr0 (∑ s ∈ Finset.range m.maxSamples, ne s b * I s b i) (∑ s ∈ Finset.range m.maxSamples, ne s b) *
          divOr0 (∑ s ∈ Finset.range m.maxSamples, ne s b * I s b j) (∑ s ∈ Finset.range m.maxSamples, ne s b))
        * d.counts b)) := by
    simp only [pqPoisson, hl, if_true]
    rw [Finset.sum_comm, ← Finset.sum_add_distrib]
    refine Finset.sum_congr rfl (fun b hb => ?_)
    have := hz b (Finset.mem_range.1 hb)
    rw [ratio_sum, ratio_sum, divOr0_of_ne this, divOr0_of_ne this, divOr0_of_ne this]
    have e : ∑ k ∈ Finset.range m.maxSamples, ne k b / (∑ s ∈ Finset.range m.maxSamples, ne s b) *
        ((∑ s ∈ Finset.range m.maxSamples, ne s b) - d.counts b) * I k b i * I k b j =
        ((∑ s ∈ Finset.range m.maxSamples, ne s b) - d.counts b) / (∑ s ∈ Finset.range m.maxSamples, ne s b) *
        ∑ s ∈ Finset.range m.maxSamples, ne s b * I s b i * I s b j := by
      rw [Finset.mul_sum]
      exact Finset.sum_congr rfl (fun k _ => by ring)
    rw [e]
    field_simp
    ring
  rw [Matrix.add_apply, Matrix.add_apply, hp, hg]
  ring

theorem quadApprox_shift {p : Matrix (Fin P) (Fin P) ℝ} (hs : p.transpose = p) {q θ0 θ1 : Fin P → ℝ}
    (h1 : p.mulVec (θ1 - θ0) = -q) (θ : Fin P → ℝ) :
    quadApprox p q θ0 θ = quadApprox p q θ0 θ1 + (1 / 2) * ((θ - θ1) ⬝ᵥ p.mulVec (θ - θ1)) := by
  have e : θ - θ0 = (θ1 - θ0) + (θ - θ1) := by abel
  have h2 : (θ1 - θ0) ⬝ᵥ p.mulVec (θ - θ1) = (θ - θ1) ⬝ᵥ p.mulVec (θ1 - θ0) := by
    rw [Matrix.dotProduct_mulVec, ← Matrix.mulVec_transpose, hs, dotProduct_comm]
  simp only [quadApprox]
  rw [e]
  simp only [Matrix.mulVec_add, dotProduct_add, add_dotProduct, h2]
  rw [h1]
  simp only [dotProduct_neg]
  rw [dotProduct_comm q (θ - θ1)]
  ring

theorem posSemidef_of {p : Matrix (Fin P) (Fin P) ℝ} (hs : p.transpose = p)
    (hp : ∀ v, 0 ≤ v ⬝ᵥ p.mulVec v) : p.PosSemidef := by
  refine Matrix.PosSemidef.of_dotProduct_mulVec_nonneg ?_ (fun v => by simpa using hp v)
  exact Matrix.IsHermitian.ext_iff.2 (fun i j => by simpa using congrFun (congrFun hs i) j)

theorem quadApprox_lt {p : Matrix (Fin P) (Fin P) ℝ} (hs : p.transpose = p)
    (hp : ∀ v, 0 ≤ v ⬝ᵥ p.mulVec v) (hd : p.det ≠ 0) {q θ0 θ1 : Fin P → ℝ}
    (h1 : p.mulVec (θ1 - θ0) = -q) {θ : Fin P → ℝ} (hne : θ ≠ θ1) :
    quadApprox p q θ0 θ1 < quadApprox p q θ0 θ := by
  rw [quadApprox_shift hs h1 θ]
  have h2 := hp (θ - θ1)
  have h3 : (θ - θ1) ⬝ᵥ p.mulVec (θ - θ1) ≠ 0 := by
    intro h
    have h4 := ((posSemidef_of hs hp).dotProduct_mulVec_zero_iff (θ - θ1)).1 (by simpa using h)
    have h5 := congrArg p⁻¹.mulVec h4
    rw [Matrix.mulVec_mulVec, Matrix.nonsing_inv_mul _ (Ne.isUnit hd), Matrix.one_mulVec,
      Matrix.mulVec_zero] at h5
    exact hne (sub_eq_zero.1 h5)
  have : 0 < (θ - θ1) ⬝ᵥ p.mulVec (θ - θ1) := lt_of_le_of_ne h2 (Ne.symm h3)
  linarith

theorem symUpper_eq {p : Matrix (Fin P) (Fin P) ℝ} (hs : p.transpose = p) : symUpper p = p := by
  funext a b
  simp only [symUpper]
  split_ifs with h
  · rfl
  · exact congrFun (congrFun hs a) b

theorem p_symm {m : Mdl n P} (hS : m.HSymm) (c : Nat → ℝ) (ne : Nat → Nat → ℝ) (I : Nat → Nat → Nat → ℝ) :
    ((m.pqPoisson ne c I).p + (m.pqGaussian ne c I).p + m.constraintHessian).transpose =
      (m.pqPoisson ne c I).p + (m.pqGaussian ne c I).p + m.constraintHessian := by
  funext a b
  rw [Matrix.transpose_apply, Matrix.add_apply, Matrix.add_apply, Matrix.add_apply, Matrix.add_apply]
  refine congrArg₂ (· + ·) (congrArg₂ (· + ·) ?_ ?_) ?_
  · simp only [pqPoisson]
    refine congrArg₂ (· + ·) (Finset.sum_congr rfl (fun i _ => by ring)) ?_
    split_ifs
    · exact Finset.sum_congr rfl (fun k _ => Finset.sum_congr rfl (fun i _ => by ring))
    · rfl
  · simp only [pqGaussian]
    refine congrArg₂ (· + ·) (bil_symm hS _ _) ?_
    split_ifs
    · refine congrArg (2 * ·) (Finset.sum_congr rfl (fun k _ => Finset.sum_congr rfl (fun i _ =>
        Finset.sum_congr rfl (fun j _ => by ring))))
    · rfl
  · simp only [constraintHessian]
    by_cases h : a = b
    · rw [h]
    · rw [Matrix.diagonal_apply_ne _ h, Matrix.diagonal_apply_ne _ (Ne.symm h)]

theorem dot_mulVec_sum (v : Fin P → ℝ) (p : Matrix (Fin P) (Fin P) ℝ) :
    v ⬝ᵥ p.mulVec v = ∑ a, ∑ b, v a * p a b * v b := by
  simp only [dotProduct, Matrix.mulVec, Finset.mul_sum, mul_assoc]

/-- Change of the linearised yields of the Gaussian bins when the NPs change by `v`. -/
noncomputable def shift (m : Mdl n P) (ne : Nat → Nat → ℝ) (I : Nat → Nat → Nat → ℝ) (v : Fin P → ℝ)
    (i : Nat) : ℝ :=
  ∑ a : Fin P, (∑ k ∈ Finset.range m.maxSamples,
    ne k (m.nbinsPoisson + i) * I k (m.nbinsPoisson + i) a) * v a

theorem q_dot {m : Mdl n P} (c : Nat → ℝ) (ne : Nat → Nat → ℝ) (I : Nat → Nat → Nat → ℝ) (v : Fin P → ℝ) :
    (m.pqGaussian ne c I).q ⬝ᵥ v = m.bil (m.shift ne I v)
      (fun i => (∑ k ∈ Finset.range m.maxSamples, ne k (m.nbinsPoisson + i)) - c (m.nbinsPoisson + i)) := by
  simp only [pqGaussian, dotProduct, bil, shift]
  have : ∀ (M : Nat → Fin P → ℝ) (δ : Nat → ℝ), ∑ a, (∑ i ∈ Finset.range m.nbinsGaussian,
      ∑ j ∈ Finset.range m.nbinsGaussian, M i a * m.poiHessian i j * δ j) * v a =
      ∑ i ∈ Finset.range m.nbinsGaussian, ∑ j ∈ Finset.range m.nbinsGaussian,
        (∑ a, M i a * v a) * m.poiHessian i j * δ j := by
    intro M δ
    simp only [Finset.sum_mul]
    rw [Finset.sum_comm]
    refine Finset.sum_congr rfl (fun i _ => ?_)
    rw [Finset.sum_comm]
    exact Finset.sum_congr rfl (fun a _ => Finset.sum_congr rfl (fun b _ => by ring))
  exact this _ _

theorem bil_add_sq {m : Mdl n P} (hS : m.HSymm) (u w : Nat → ℝ) :
    m.bil (fun i => u i + w i) (fun i => u i + w i) = m.bil u u + 2 * m.bil w u + m.bil w w := by
  have h := bil_symm hS u w
  have e : m.bil (fun i => u i + w i) (fun i => u i + w i) =
      m.bil u u + m.bil u w + m.bil w u + m.bil w w := by
    simp only [bil, ← Finset.sum_add_distrib]
    exact Finset.sum_congr rfl (fun i _ => Finset.sum_congr rfl (fun j _ => by ring))
  rw [e, h]; ring

/-- `vᵀ P v` without the lognormal terms. -/
theorem p_quad {m : Mdl n P} (hl : m.use_lognormal_terms = false) (c : Nat → ℝ) (ne : Nat → Nat → ℝ)
    (I : Nat → Nat → Nat → ℝ) (v : Fin P → ℝ) :
    ∃ (R : Nat → ℝ), v ⬝ᵥ ((m.pqPoisson ne c I).p + (m.pqGaussian ne c I).p + m.constraintHessian).mulVec v =
      (∑ i ∈ Finset.range m.nbinsPoisson, c i * R i ^ 2) + m.bil (m.shift ne I v) (m.shift ne I v) +
        ∑ a, (m.nps a).constraintWeight * v a ^ 2 := by
  refine ⟨fun i => ∑ a : Fin P, (∑ k ∈ Finset.range m.maxSamples,
      ne k i / (∑ k ∈ Finset.range m.maxSamples, ne k i) * I k i a) * v a, ?_⟩
  rw [Matrix.add_mulVec, Matrix.add_mulVec, dotProduct_add, dotProduct_add]
  refine congrArg₂ (· + ·) (congrArg₂ (· + ·) ?_ ?_) ?_
  · rw [dot_mulVec_sum]
    simp only [pqPoisson, hl, Bool.false_eq_true, if_false, add_zero]
    simp only [Finset.mul_sum, Finset.sum_mul, sq]
    simp only [← Finset.mul_sum, ← Finset.sum_mul]
    have : ∀ (R : Nat → Fin P → ℝ), ∑ a, ∑ b, v a * (∑ i ∈ Finset.range m.nbinsPoisson, c i * R i a * R i b) * v b
      = ∑ i ∈ Finset.range m.nbinsPoisson, c i * ((∑ a, R i a * v a) * ∑ a, R i a * v a) := by
      intro R
      simp only [Finset.mul_sum, Finset.sum_mul]
      rw [Finset.sum_congr rfl (fun a _ => Finset.sum_comm), Finset.sum_comm]
      refine Finset.sum_congr rfl (fun i _ => ?_)
      rw [Finset.sum_comm]
      exact Finset.sum_congr rfl (fun a _ => Finset.sum_congr rfl (fun b _ => by ring))
    exact this _
  · rw [dot_mulVec_sum]
    simp only [pqGaussian, hl, Bool.false_eq_true, if_false, add_zero]
    have : ∀ (M : Nat → Fin P → ℝ), ∑ a, ∑ b, v a * (∑ i ∈ Finset.range m.nbinsGaussian,
        ∑ j ∈ Finset.range m.nbinsGaussian, M i a * m.poiHessian i j * M j b) * v b
        = m.bil (fun i => ∑ a, M i a * v a) (fun i => ∑ a, M i a * v a) := by
      intro M
      simp only [bil, Finset.mul_sum, Finset.sum_mul]
      rw [Finset.sum_congr rfl (fun a _ => Finset.sum_comm), Finset.sum_comm]
      refine Finset.sum_congr rfl (fun i _ => ?_)
      rw [Finset.sum_congr rfl (fun a _ => Finset.sum_comm), Finset.sum_comm]
      refine Finset.sum_congr rfl (fun j _ => ?_)
      rw [Finset.sum_comm]
      exact Finset.sum_congr rfl (fun a _ => Finset.sum_congr rfl (fun b _ => by ring))
    exact this _
  · simp only [constraintHessian, dotProduct, Matrix.mulVec_diagonal]
    exact Finset.sum_congr rfl (fun a _ => by ring)

/-- With Gaussian channels only, the NLL for linearised yields is its second-order expansion. -/
theorem nllVal_linY {m : Mdl n P} (hl : m.use_lognormal_terms = false) (hS : m.HSymm)
    (hG : m.nbinsPoisson = 0) (d : DataV P) (ne : Nat → Nat → ℝ) (I : Nat → Nat → Nat → ℝ)
    (θ0 θ : Fin P → ℝ) :
    m.nllVal (fun b => m.linY ne I θ0 b θ) θ d false =
      m.nllVal (fun b => m.linY ne I θ0 b θ0) θ0 d false +
      quadApprox ((m.pqPoisson ne d.counts I).p + (m.pqGaussian ne d.counts I).p + m.constraintHessian)
        ((m.pqPoisson ne d.counts I).q + (m.pqGaussian ne d.counts I).q +
          m.constraintHessian.mulVec (fun a => θ0 a - d.aux_obs a)) θ0 θ := by
  obtain ⟨R, hR⟩ := p_quad hl d.counts ne I (θ - θ0)
  simp only [quadApprox, hR, add_dotProduct, q_dot]
  have h1 : (m.pqPoisson ne d.counts I).q = 0 := by
    funext a; simp [pqPoisson, hG]
  have h2 : ∀ i, m.linY ne I θ0 (m.nbinsPoisson + i) θ - d.counts (m.nbinsPoisson + i) =
      ((∑ k ∈ Finset.range m.maxSamples, ne k (m.nbinsPoisson + i)) - d.counts (m.nbinsPoisson + i)) +
        m.shift ne I (θ - θ0) i := by
    intro i
    simp only [linY, shift, mul_add, mul_one, Finset.sum_add_distrib, Finset.mul_sum, Finset.sum_mul,
      Pi.sub_apply]
    rw [Finset.sum_comm (s := Finset.univ)]
    simp only [mul_assoc]
    ring
  have h3 : m.constraintTerm θ d = m.constraintTerm θ0 d +
      (m.constraintHessian.mulVec (fun a => θ0 a - d.aux_obs a) ⬝ᵥ (θ - θ0) +
        (1 / 2) * ∑ a, (m.nps a).constraintWeight * (θ - θ0) a ^ 2) := by
    simp only [constraintTerm_eq, constraintHessian, dotProduct, Matrix.mulVec_diagonal, Finset.mul_sum,
      ← Finset.sum_add_distrib, Pi.sub_apply]
    exact Finset.sum_congr rfl (fun a _ => by ring)
  simp only [hG] at h2
  simp only [nllVal, quad, hG, h2, linY_self, h1, zero_dotProduct, Finset.range_zero, Finset.sum_empty,
    Bool.false_eq_true, if_false, h3]
  have h4 := bil_add_sq hS (fun i => (∑ k ∈ Finset.range m.maxSamples, ne k (m.nbinsPoisson + i)) -
    d.counts (m.nbinsPoisson + i)) (m.shift ne I (θ - θ0))
  simp only [hG] at h4
  simp only [bil] at h4 ⊢
  rw [h4]
  ring

/-- A symmetric matrix bounded below by the identity has determinant at least 1. -/
theorem one_le_det {p : Matrix (Fin P) (Fin P) ℝ} (hs : p.transpose = p)
    (h : ∀ v, v ⬝ᵥ v ≤ v ⬝ᵥ p.mulVec v) : 1 ≤ p.det := by
  have hH : p.IsHermitian := Matrix.IsHermitian.ext_iff.2 (fun i j => by simpa using congrFun (congrFun hs i) j)
  rw [hH.det_eq_prod_eigenvalues]
  have hev : ∀ i, 1 ≤ hH.eigenvalues i := by
    intro i
    have h1 := h (hH.eigenvectorBasis i)
    have h2 := hH.eigenvalues_eq i
    simp only [star_trivial, RCLike.re_to_real] at h2
    rw [← h2] at h1
    have h3 : inner ℝ (hH.eigenvectorBasis i) (hH.eigenvectorBasis i) = 1 := by
      rw [real_inner_self_eq_norm_sq, hH.eigenvectorBasis.orthonormal.1 i]; norm_num
    rw [EuclideanSpace.inner_eq_star_dotProduct] at h3
    simp only [star_trivial] at h3
    rwa [h3] at h1
  have := Finset.prod_le_prod (s := Finset.univ) (f := fun _ : Fin P => (1 : ℝ))
    (g := fun i => hH.eigenvalues i) (fun _ _ => zero_le_one) (fun i _ => hev i)
  simpa using this

/-- With symmetric linear impacts the yields are the linearised ones. -/
theorem tot_linear {m : Mdl n P} {A : Arrays} {x : Fin n → ℝ} {ne}
    (ha : m.use_asym_impacts = false) (hl : m.use_linear_nps = true) (hc : m.cutoff = 0)
    (hne : m.nExp A x 0 = .ok ne) (θ : Fin P → ℝ) :
    m.totBinExp A x θ = .ok (fun b => m.linY ne A.sym 0 b θ) := by
  obtain ⟨vals, hv, hcomp⟩ := nExp_inv hne
  obtain ⟨ne', h1, h2⟩ := nExp_ok A (0 : Fin P → ℝ) hv hcomp
  have : ne = ne' := Except.ok.inj (hne.symm.trans h1)
  subst this
  rw [tot_ok A θ hv hcomp]
  congr 1
  funext b
  simp only [totAt, linY]
  refine Finset.sum_congr rfl (fun s hs => ?_)
  rw [h2 s (Finset.mem_range.1 hs)]
  simp [yieldAt, cutKExp, hc, kExp, ha, hl]

theorem tot_ne {m : Mdl n P} {A : Arrays} {x : Fin n → ℝ} {θ : Fin P → ℝ} {N}
    (h : m.totBinExp A x θ = .ok N) : ∃ ne, m.nExp A x θ = .ok ne ∧
      N = fun b => ∑ s ∈ Finset.range m.maxSamples, ne s b := by
  simp only [totBinExp] at h
  obtain ⟨ne, h1, h2⟩ := bind_eq_ok.1 h
  exact ⟨ne, h1, (Except.ok.inj h2).symm⟩

end Mdl
end Verif
