import Verif.Lemmas.NPMin
import Verif.Lemmas.DemoNP
/-!
# C18, C19: profiling of the nuisance parameters

`m.pq A x θ d` are the matrix `P` and vector `Q` of the linear system solved by
`NPMinimizer.profile` at the hypothesis `(x, θ)`, and `m.profile A x θ d` the NPs it returns.
`HasGrad f g x` says that `f` is differentiable at `x` with gradient `g`; `linY`, `expY`, `quadApprox`
are in `Verif/Spec/NPMin.lean`.
-/
namespace Verif.Props
open Verif Filter Topology
variable {n P : Nat}

/-- C18.  For symmetric linear impacts (the form for which profiling is designed), `Q` and `P` computed at
the nominal NPs are the exact gradient and Hessian of the NLL with respect to the NPs. -/
theorem c18_exact_derivatives (m : Mdl n P) (A : Mdl.Arrays) (x : Fin n → ℝ) (d : Mdl.DataV P)
    (ha : m.use_asym_impacts = false) (hlin : m.use_linear_nps = true) (hc : m.cutoff = 0)
    (hl : m.use_lognormal_terms = false) (hS : m.HSymm) (N : Nat → ℝ)
    (hN : m.totBinExp A x 0 = .ok N) (hp : ∀ b < m.nbinsPoisson, 0 < N b) :
    ∃ s, m.pq A x 0 d = .ok s ∧ ∃ (f : (Fin P → ℝ) → ℝ) (G : (Fin P → ℝ) → Fin P → ℝ),
      (∀ᶠ θ in 𝓝 0, m.nll A x θ d false = .ok (.fin (f θ)) ∧ HasGrad f (G θ) θ) ∧
      G 0 = s.q ∧ ∀ j, HasGrad (fun θ => G θ j) (fun i => s.p i j) 0 := by
  obtain ⟨ne, hne, rfl⟩ := Mdl.tot_ne hN
  obtain ⟨s, hs⟩ := Mdl.pq_ok d hne (Or.inr rfl) (fun b hb => (hp b hb).ne')
  obtain ⟨ne', hne', _, _, hsp, hsq⟩ := Mdl.pq_inv hs
  have : ne = ne' := Except.ok.inj (hne.symm.trans hne')
  subst this
  have hz := fun b (hb : b < m.nbinsPoisson) => (hp b hb).ne'
  have hT0 : ∀ b, m.linY ne A.sym 0 b 0 = ∑ s ∈ Finset.range m.maxSamples, ne s b := m.linY_self ne A.sym 0
  refine ⟨s, hs, fun θ => m.nllVal (fun b => m.linY ne A.sym 0 b θ) θ d false,
    m.npGrad d (m.linY ne A.sym 0) (fun b _ a => ∑ s ∈ Finset.range m.maxSamples, ne s b * A.sym s b a), ?_, ?_, ?_⟩
  · have hpos : ∀ᶠ θ in 𝓝 (0 : Fin P → ℝ), ∀ b ∈ Finset.range m.nbinsPoisson, 0 < m.linY ne A.sym 0 b θ :=
      (Finset.eventually_all _).2 (fun b hb =>
        (m.linY_hasGrad ne A.sym 0 b 0).continuousAt.eventually (lt_mem_nhds (by
          rw [hT0]; exact hp b (Finset.mem_range.1 hb))))
    filter_upwards [hpos] with θ hθ
    have hθ' : ∀ b < m.nbinsPoisson, 0 < m.linY ne A.sym 0 b θ := fun b hb => hθ b (Finset.mem_range.2 hb)
    exact ⟨Mdl.nll_ok (Mdl.tot_linear ha hlin hc hne θ) hθ',
      Mdl.nll_np_hasGrad hS (fun b => m.linY_hasGrad ne A.sym 0 b θ) hθ'⟩
  · rw [hsq]
    exact (Mdl.q_eq hT0 (fun b a => rfl) hz).symm
  · intro j
    have h := Mdl.npGrad_hasGrad (m := m) (d := d) (T := m.linY ne A.sym 0)
      (J := fun b _ a => ∑ s ∈ Finset.range m.maxSamples, ne s b * A.sym s b a) (K := fun _ _ _ => 0)
      (fun b => m.linY_hasGrad ne A.sym 0 b 0) (fun b hb => by rw [hT0]; exact hp b hb) j
      (fun b => hasGrad_const _ _)
    convert h using 1
    funext i
    rw [hsp, Mdl.p_lin_eq hS hl hz]
    simp only [hT0]

/-- C18.  At any hypothesis, whatever the kind of impacts, `Q` and `P` are the gradient and Hessian at the
hypothesis of the NLL in which the yields are replaced by their linearisation with the symmetrised
impacts `A.sym`. -/
theorem c18_linearised_derivatives (m : Mdl n P) (A : Mdl.Arrays) (x : Fin n → ℝ) (θ0 : Fin P → ℝ)
    (d : Mdl.DataV P) (hl : m.use_lognormal_terms = false) (hS : m.HSymm) (s : Mdl.PQ P)
    (hs : m.pq A x θ0 d = .ok s) (ne : Nat → Nat → ℝ) (hne : m.nExp A x θ0 = .ok ne)
    (hp : ∀ b < m.nbinsPoisson, 0 < ∑ k ∈ Finset.range m.maxSamples, ne k b) :
    ∃ G : (Fin P → ℝ) → Fin P → ℝ,
      (∀ᶠ θ in 𝓝 θ0, HasGrad (fun θ => m.nllVal (fun b => m.linY ne A.sym θ0 b θ) θ d false) (G θ) θ) ∧
      G θ0 = s.q ∧ ∀ j, HasGrad (fun θ => G θ j) (fun i => s.p i j) θ0 := by
  obtain ⟨ne', hne', _, _, hsp, hsq⟩ := Mdl.pq_inv hs
  have : ne = ne' := Except.ok.inj (hne.symm.trans hne')
  subst this
  have hz := fun b (hb : b < m.nbinsPoisson) => (hp b hb).ne'
  have hT0 : ∀ b, m.linY ne A.sym θ0 b θ0 = ∑ s ∈ Finset.range m.maxSamples, ne s b := m.linY_self ne A.sym θ0
  refine ⟨m.npGrad d (m.linY ne A.sym θ0) (fun b _ a => ∑ s ∈ Finset.range m.maxSamples, ne s b * A.sym s b a), ?_, ?_, ?_⟩
  · have hpos : ∀ᶠ θ in 𝓝 θ0, ∀ b ∈ Finset.range m.nbinsPoisson, 0 < m.linY ne A.sym θ0 b θ :=
      (Finset.eventually_all _).2 (fun b hb =>
        (m.linY_hasGrad ne A.sym θ0 b θ0).continuousAt.eventually (lt_mem_nhds (by
          rw [hT0]; exact hp b (Finset.mem_range.1 hb))))
    filter_upwards [hpos] with θ hθ
    exact Mdl.nll_np_hasGrad hS (fun b => m.linY_hasGrad ne A.sym θ0 b θ)
      (fun b hb => hθ b (Finset.mem_range.2 hb))
  · rw [hsq]
    exact (Mdl.q_eq hT0 (fun b a => rfl) hz).symm
  · intro j
    have h := Mdl.npGrad_hasGrad (m := m) (d := d) (T := m.linY ne A.sym θ0)
      (J := fun b _ a => ∑ s ∈ Finset.range m.maxSamples, ne s b * A.sym s b a) (K := fun _ _ _ => 0)
      (fun b => m.linY_hasGrad ne A.sym θ0 b θ0) (fun b hb => by rw [hT0]; exact hp b hb) j
      (fun b => hasGrad_const _ _)
    convert h using 1
    funext i
    rw [hsp, Mdl.p_lin_eq hS hl hz]
    simp only [hT0]

/-- C18.  With `use_lognormal_terms` and Poisson channels only, the same holds for the exponentiated
impacts. -/
theorem c18_lognormal_derivatives (m : Mdl n P) (A : Mdl.Arrays) (x : Fin n → ℝ) (θ0 : Fin P → ℝ)
    (d : Mdl.DataV P) (hl : m.use_lognormal_terms = true) (hG : m.nbinsGaussian = 0) (s : Mdl.PQ P)
    (hs : m.pq A x θ0 d = .ok s) (ne : Nat → Nat → ℝ) (hne : m.nExp A x θ0 = .ok ne)
    (hp : ∀ b < m.nbinsPoisson, 0 < ∑ k ∈ Finset.range m.maxSamples, ne k b) :
    ∃ G : (Fin P → ℝ) → Fin P → ℝ,
      (∀ᶠ θ in 𝓝 θ0, HasGrad (fun θ => m.nllVal (fun b => m.expY ne A.sym θ0 b θ) θ d false) (G θ) θ) ∧
      G θ0 = s.q ∧ ∀ j, HasGrad (fun θ => G θ j) (fun i => s.p i j) θ0 := by
  obtain ⟨ne', hne', _, _, hsp, hsq⟩ := Mdl.pq_inv hs
  have : ne = ne' := Except.ok.inj (hne.symm.trans hne')
  subst this
  have hz := fun b (hb : b < m.nbinsPoisson) => (hp b hb).ne'
  have hT0 : ∀ b, m.expY ne A.sym θ0 b θ0 = ∑ s ∈ Finset.range m.maxSamples, ne s b := m.expY_self ne A.sym θ0
  have hS : m.HSymm := fun i hi => by omega
  refine ⟨m.npGrad d (m.expY ne A.sym θ0) (fun b θ a => ∑ s ∈ Finset.range m.maxSamples,
      ne s b * (Real.exp (∑ a : Fin P, A.sym s b a * (θ a - θ0 a)) * A.sym s b a)), ?_, ?_, ?_⟩
  · have hpos : ∀ᶠ θ in 𝓝 θ0, ∀ b ∈ Finset.range m.nbinsPoisson, 0 < m.expY ne A.sym θ0 b θ :=
      (Finset.eventually_all _).2 (fun b hb =>
        (m.expY_hasGrad ne A.sym θ0 b θ0).continuousAt.eventually (lt_mem_nhds (by
          rw [hT0]; exact hp b (Finset.mem_range.1 hb))))
    filter_upwards [hpos] with θ hθ
    exact Mdl.nll_np_hasGrad (J := fun b θ a => ∑ s ∈ Finset.range m.maxSamples,
      ne s b * (Real.exp (∑ a : Fin P, A.sym s b a * (θ a - θ0 a)) * A.sym s b a))
      hS (fun b => m.expY_hasGrad ne A.sym θ0 b θ)
      (fun b hb => hθ b (Finset.mem_range.2 hb))
  · rw [hsq]
    exact (Mdl.q_eq hT0 (fun b a => by simp) hz).symm
  · intro j
    have h := Mdl.npGrad_hasGrad (m := m) (d := d) (T := m.expY ne A.sym θ0)
      (J := fun b θ a => ∑ s ∈ Finset.range m.maxSamples,
        ne s b * (Real.exp (∑ a : Fin P, A.sym s b a * (θ a - θ0 a)) * A.sym s b a))
      (K := fun b i j => ∑ s ∈ Finset.range m.maxSamples,
        ne s b * (Real.exp (∑ a : Fin P, A.sym s b a * (θ0 a - θ0 a)) * A.sym s b i * A.sym s b j))
      (fun b => m.expY_hasGrad ne A.sym θ0 b θ0) (fun b hb => by rw [hT0]; exact hp b hb) j
      (fun b => m.expY_grad_hasGrad ne A.sym θ0 b θ0 j)
    convert h using 1
    funext i
    rw [hsp, Mdl.p_log_eq hl hG hz]
    simp only [hT0, sub_self, mul_zero, Finset.sum_const_zero, Real.exp_zero, one_mul, Mdl.bil, hG,
      Finset.range_zero, Finset.sum_empty, add_zero, mul_assoc]

/-- C18 (F11): with `use_lognormal_terms` and any channels, `Q` is the gradient of the NLL with the
exponentiated impacts, and `P` is its Hessian plus once more the part of the Hessian that comes from the
second derivatives of the yields of the Gaussian bins. -/
theorem c18_lognormal_excess (m : Mdl n P) (A : Mdl.Arrays) (x : Fin n → ℝ) (θ0 : Fin P → ℝ)
    (d : Mdl.DataV P) (hl : m.use_lognormal_terms = true) (hS : m.HSymm) (s : Mdl.PQ P)
    (hs : m.pq A x θ0 d = .ok s) (ne : Nat → Nat → ℝ) (hne : m.nExp A x θ0 = .ok ne)
    (hp : ∀ b < m.nbinsPoisson, 0 < ∑ k ∈ Finset.range m.maxSamples, ne k b) :
    ∃ (G : (Fin P → ℝ) → Fin P → ℝ) (H : Fin P → Fin P → ℝ),
      (∀ᶠ θ in 𝓝 θ0, HasGrad (fun θ => m.nllVal (fun b => m.expY ne A.sym θ0 b θ) θ d false) (G θ) θ) ∧
      G θ0 = s.q ∧ (∀ j, HasGrad (fun θ => G θ j) (fun i => H i j) θ0) ∧
      ∀ i j, s.p i j = H i j + ∑ u ∈ Finset.range m.nbinsGaussian, ∑ w ∈ Finset.range m.nbinsGaussian,
        (∑ k ∈ Finset.range m.maxSamples,
          ne k (m.nbinsPoisson + u) * A.sym k (m.nbinsPoisson + u) i * A.sym k (m.nbinsPoisson + u) j) *
        m.poiHessian u w *
        ((∑ k ∈ Finset.range m.maxSamples, ne k (m.nbinsPoisson + w)) - d.counts (m.nbinsPoisson + w)) := by
  obtain ⟨ne', hne', _, _, hsp, hsq⟩ := Mdl.pq_inv hs
  have : ne = ne' := Except.ok.inj (hne.symm.trans hne')
  subst this
  have hz := fun b (hb : b < m.nbinsPoisson) => (hp b hb).ne'
  have hT0 : ∀ b, m.expY ne A.sym θ0 b θ0 = ∑ s ∈ Finset.range m.maxSamples, ne s b := m.expY_self ne A.sym θ0
  refine ⟨m.npGrad d (m.expY ne A.sym θ0) (fun b θ a => ∑ s ∈ Finset.range m.maxSamples,
      ne s b * (Real.exp (∑ a : Fin P, A.sym s b a * (θ a - θ0 a)) * A.sym s b a)), _, ?_, ?_, fun j =>
    Mdl.npGrad_hasGrad (m := m) (d := d) (T := m.expY ne A.sym θ0)
      (J := fun b θ a => ∑ s ∈ Finset.range m.maxSamples,
        ne s b * (Real.exp (∑ a : Fin P, A.sym s b a * (θ a - θ0 a)) * A.sym s b a))
      (K := fun b i j => ∑ s ∈ Finset.range m.maxSamples,
        ne s b * (Real.exp (∑ a : Fin P, A.sym s b a * (θ0 a - θ0 a)) * A.sym s b i * A.sym s b j))
      (fun b => m.expY_hasGrad ne A.sym θ0 b θ0) (fun b hb => by rw [hT0]; exact hp b hb) j
      (fun b => m.expY_grad_hasGrad ne A.sym θ0 b θ0 j), ?_⟩
  · have hpos : ∀ᶠ θ in 𝓝 θ0, ∀ b ∈ Finset.range m.nbinsPoisson, 0 < m.expY ne A.sym θ0 b θ :=
      (Finset.eventually_all _).2 (fun b hb =>
        (m.expY_hasGrad ne A.sym θ0 b θ0).continuousAt.eventually (lt_mem_nhds (by
          rw [hT0]; exact hp b (Finset.mem_range.1 hb))))
    filter_upwards [hpos] with θ hθ
    exact Mdl.nll_np_hasGrad (J := fun b θ a => ∑ s ∈ Finset.range m.maxSamples,
      ne s b * (Real.exp (∑ a : Fin P, A.sym s b a * (θ a - θ0 a)) * A.sym s b a))
      hS (fun b => m.expY_hasGrad ne A.sym θ0 b θ)
      (fun b hb => hθ b (Finset.mem_range.2 hb))
  · rw [hsq]
    exact (Mdl.q_eq hT0 (fun b a => by simp) hz).symm
  · intro i j
    rw [hsp, Mdl.p_log_gen hS hl hz]
    simp only [hT0, sub_self, mul_zero, Finset.sum_const_zero, Real.exp_zero, one_mul, Mdl.bil, mul_assoc]

/-- C18.  `P` is symmetric. -/
theorem c18_symmetric (m : Mdl n P) (A : Mdl.Arrays) (x : Fin n → ℝ) (θ0 : Fin P → ℝ)
    (d : Mdl.DataV P) (hS : m.HSymm) (s : Mdl.PQ P) (hs : m.pq A x θ0 d = .ok s) (a b : Fin P) :
    s.p a b = s.p b a := by
  obtain ⟨ne, _, _, _, hsp, _⟩ := Mdl.pq_inv hs
  rw [hsp]
  exact congrFun (congrFun (Mdl.p_symm hS d.counts ne A.sym) b) a

/-- C18.  Without the lognormal terms and with non-negative counts `P` is positive semi-definite. -/
theorem c18_psd (m : Mdl n P) (A : Mdl.Arrays) (x : Fin n → ℝ) (θ0 : Fin P → ℝ)
    (d : Mdl.DataV P) (hl : m.use_lognormal_terms = false) (hH : m.HPsd)
    (hc : ∀ b < m.nbinsPoisson, 0 ≤ d.counts b) (s : Mdl.PQ P) (hs : m.pq A x θ0 d = .ok s)
    (v : Fin P → ℝ) : 0 ≤ v ⬝ᵥ s.p.mulVec v := by
  obtain ⟨ne, _, _, _, hsp, _⟩ := Mdl.pq_inv hs
  rw [hsp]
  obtain ⟨R, h⟩ := Mdl.p_quad hl d.counts ne A.sym v
  rw [h]
  have h1 : 0 ≤ ∑ i ∈ Finset.range m.nbinsPoisson, d.counts i * R i ^ 2 :=
    Finset.sum_nonneg (fun i hi => mul_nonneg (hc i (Finset.mem_range.1 hi)) (sq_nonneg _))
  have h2 : 0 ≤ ∑ a, (m.nps a).constraintWeight * v a ^ 2 :=
    Finset.sum_nonneg (fun a _ => mul_nonneg (NP.constraintWeight_nonneg _) (sq_nonneg _))
  have h3 := hH (m.shift ne A.sym v)
  simp only [Mdl.bil]
  linarith

/-- C18.  When the determinant passes the threshold, `profile` succeeds and returns the unique global
minimum over all NP values of the quadratic function with gradient `Q` and Hessian `P` at the hypothesis;
below the threshold it returns the hypothesis unchanged. -/
theorem c18_profile_minimises (m : Mdl n P) (A : Mdl.Arrays) (x : Fin n → ℝ) (θ0 : Fin P → ℝ)
    (d : Mdl.DataV P) (hl : m.use_lognormal_terms = false) (hS : m.HSymm) (hH : m.HPsd)
    (hc : ∀ b < m.nbinsPoisson, 0 ≤ d.counts b) (s : Mdl.PQ P) (hs : m.pq A x θ0 d = .ok s) :
    ((1 / 1000) ^ P ≤ |s.p.det| → ∃ θ1, m.profile A x θ0 d = .ok θ1 ∧
      ∀ θ, θ ≠ θ1 → Mdl.quadApprox s.p s.q θ0 θ1 < Mdl.quadApprox s.p s.q θ0 θ) ∧
    (|s.p.det| < (1 / 1000) ^ P → m.profile A x θ0 d = .ok θ0) := by
  constructor
  · intro hd
    have hd0 : s.p.det ≠ 0 := by
      intro h
      rw [h, abs_zero] at hd
      exact absurd hd (not_le.2 (by positivity))
    have hsym : s.p.transpose = s.p := by
      funext a b; exact c18_symmetric m A x θ0 d hS s hs b a
    refine ⟨_, by
      simp only [Mdl.profile, hs, bind_ok]
      rw [if_neg (not_lt.2 hd), Mdl.symUpper_eq hsym, if_neg hd0]; rfl, ?_⟩
    intro θ hθ
    refine Mdl.quadApprox_lt hsym (c18_psd m A x θ0 d hl hH hc s hs) hd0 ?_ hθ
    have e : ((fun a => θ0 a - (s.p⁻¹).mulVec s.q a) - θ0) = -(s.p⁻¹).mulVec s.q := by
      funext a; simp
    rw [e, Matrix.mulVec_neg, Matrix.mulVec_mulVec, Matrix.mul_nonsing_inv _ (Ne.isUnit hd0), Matrix.one_mulVec]
  · intro hd
    simp only [Mdl.profile, hs, bind_ok]
    rw [if_pos hd]; rfl

/-- The step of `profile` is never suppressed when every NP has a constraint at most as wide as its
variation (as for the default, unit constraint): the determinant is at least 1. -/
theorem c18_well_conditioned (m : Mdl n P) (A : Mdl.Arrays) (x : Fin n → ℝ) (θ0 : Fin P → ℝ)
    (d : Mdl.DataV P) (hl : m.use_lognormal_terms = false) (hS : m.HSymm) (hH : m.HPsd)
    (hc : ∀ b < m.nbinsPoisson, 0 ≤ d.counts b)
    (hw : ∀ p, ∃ c, (m.nps p).scaledConstraint = .ok c ∧ c ≠ 0 ∧ |c| ≤ 1)
    (s : Mdl.PQ P) (hs : m.pq A x θ0 d = .ok s) : (1 / 1000) ^ P ≤ |s.p.det| := by
  have hsym : s.p.transpose = s.p := by
    funext a b; exact c18_symmetric m A x θ0 d hS s hs b a
  have h1 : 1 ≤ s.p.det := by
    refine Mdl.one_le_det hsym (fun v => ?_)
    obtain ⟨ne, _, _, _, hsp, _⟩ := Mdl.pq_inv hs
    rw [hsp]
    obtain ⟨R, h⟩ := Mdl.p_quad hl d.counts ne A.sym v
    rw [h]
    have h1 : 0 ≤ ∑ i ∈ Finset.range m.nbinsPoisson, d.counts i * R i ^ 2 :=
      Finset.sum_nonneg (fun i hi => mul_nonneg (hc i (Finset.mem_range.1 hi)) (sq_nonneg _))
    have h2 : v ⬝ᵥ v ≤ ∑ a, (m.nps a).constraintWeight * v a ^ 2 := by
      simp only [dotProduct]
      refine Finset.sum_le_sum (fun a _ => ?_)
      obtain ⟨c, h3, h4, h5⟩ := hw a
      have h6 : 1 ≤ (m.nps a).constraintWeight := by
        simp only [NP.constraintWeight, h3]
        rw [le_div_iff₀ (by positivity), one_mul]
        exact (sq_le_one_iff_abs_le_one c).2 h5
      nlinarith [sq_nonneg (v a)]
    have h3 := hH (m.shift ne A.sym v)
    simp only [Mdl.bil]
    linarith
  rw [abs_of_nonneg (by linarith)]
  exact le_trans (pow_le_one₀ (by norm_num) (by norm_num)) h1

/-- Finding F09: unless `use_simple_sym_impacts` is set, profiling from any nonzero NP values raises an
exception, for every model (so `niter > 1` cannot be used). -/
theorem c18_nonzero_start_fails (m : Mdl n P) (A : Mdl.Arrays) (x : Fin n → ℝ) (θ0 : Fin P → ℝ)
    (d : Mdl.DataV P) (hs : m.use_simple_sym_impacts = false) (h0 : θ0 ≠ 0) :
    ∃ e, m.profile A x θ0 d = .error e := by
  cases h : m.nExp A x θ0 with
  | error e => exact ⟨e, by simp [Mdl.profile, Mdl.pq, h]⟩
  | ok ne => exact ⟨.nameError, by simp [Mdl.profile, Mdl.pq, h, Mdl.linearImpacts, hs, h0]⟩

/-- C19.  With Gaussian channels only and symmetric linear impacts, a single step from the nominal NPs
(with a determinant above the threshold) reaches the unique global minimum of the NLL over all NPs. -/
theorem c19_gaussian_exact (m : Mdl n P) (A : Mdl.Arrays) (x : Fin n → ℝ) (d : Mdl.DataV P)
    (ha : m.use_asym_impacts = false) (hlin : m.use_linear_nps = true) (hc : m.cutoff = 0)
    (hl : m.use_lognormal_terms = false) (hS : m.HSymm) (hH : m.HPsd) (hG : m.nbinsPoisson = 0)
    (s : Mdl.PQ P) (hs : m.pq A x 0 d = .ok s) (hd : (1 / 1000) ^ P ≤ |s.p.det|) :
    ∃ θ1 v1, m.profile A x 0 d = .ok θ1 ∧ m.nll A x θ1 d false = .ok (.fin v1) ∧
      ∀ θ, θ ≠ θ1 → ∃ v, m.nll A x θ d false = .ok (.fin v) ∧ v1 < v := by
  obtain ⟨θ1, h1, h2⟩ := (c18_profile_minimises m A x 0 d hl hS hH
    (fun b hb => by omega) s hs).1 hd
  obtain ⟨ne, hne, _, _, hsp, hsq⟩ := Mdl.pq_inv hs
  have hv : ∀ θ, m.nll A x θ d false = .ok (.fin (m.nllVal (fun b => m.linY ne A.sym 0 b θ) θ d false)) :=
    fun θ => Mdl.nll_ok (Mdl.tot_linear ha hlin hc hne θ) (fun b hb => by omega)
  refine ⟨θ1, _, h1, hv θ1, fun θ hθ => ⟨_, hv θ, ?_⟩⟩
  have h3 := h2 θ hθ
  rw [Mdl.nllVal_linY hl hS hG d ne A.sym 0 θ1, Mdl.nllVal_linY hl hS hG d ne A.sym 0 θ, ← hsp, ← hsq]
  linarith

/-- C19 for the NLL with its default offset, which shifts it by a constant. -/
theorem c19_gaussian_exact_offset (m : Mdl n P) (A : Mdl.Arrays) (x : Fin n → ℝ) (d : Mdl.DataV P)
    (ha : m.use_asym_impacts = false) (hlin : m.use_linear_nps = true) (hc : m.cutoff = 0)
    (hl : m.use_lognormal_terms = false) (hS : m.HSymm) (hH : m.HPsd) (hG : m.nbinsPoisson = 0)
    (s : Mdl.PQ P) (hs : m.pq A x 0 d = .ok s) (hd : (1 / 1000) ^ P ≤ |s.p.det|)
    (N0 : Nat → ℝ) (h0 : m.refTot A = .ok N0) :
    ∃ θ1 v1, m.profile A x 0 d = .ok θ1 ∧ m.profileNll A x 0 d = .ok (.fin v1) ∧
      ∀ θ, θ ≠ θ1 → ∃ v, m.nll A x θ d = .ok (.fin v) ∧ v1 < v := by
  obtain ⟨θ1, h1, h2⟩ := (c18_profile_minimises m A x 0 d hl hS hH
    (fun b hb => by omega) s hs).1 hd
  obtain ⟨ne, hne, _, _, hsp, hsq⟩ := Mdl.pq_inv hs
  have hv : ∀ θ, m.nll A x θ d = .ok (.fin (m.nllVal (fun b => m.linY ne A.sym 0 b θ) θ d false -
      m.offsetVal N0 d)) := fun θ => by
    rw [Mdl.nll_off_ok (Mdl.tot_linear ha hlin hc hne θ) (fun b hb => by omega) h0
      (fun b hb => by omega), Mdl.nllValOff_eq (fun b hb => by omega) (fun b hb => by omega) _ hS]
  refine ⟨θ1, _, h1, by simp only [Mdl.profileNll, h1, bind_ok]; exact hv θ1, fun θ hθ => ⟨_, hv θ, ?_⟩⟩
  have h3 := h2 θ hθ
  rw [Mdl.nllVal_linY hl hS hG d ne A.sym 0 θ1, Mdl.nllVal_linY hl hS hG d ne A.sym 0 θ, ← hsp, ← hsq]
  linarith

/-- Finding F10: with the default options for linear impacts (`use_simple_sym_impacts`), profiling again from
the profiled NPs (`niter = 2`) moves away from the exact minimum already reached: on this one-bin Gaussian
model with a linear symmetric impact the NLL increases. -/
theorem c19_second_iteration_worsens :
    ∃ (m : Mdl 1 1) (A : Mdl.Arrays) (d : Mdl.DataV 1) (θ1 θ2 : Fin 1 → ℝ) (v1 v2 : ℝ),
      m.setInternal = .ok A ∧ m.use_simple_sym_impacts = true ∧ m.use_linear_nps = true ∧
      m.use_asym_impacts = false ∧ m.profileNps A ![1] d 1 0 = .ok θ1 ∧
      m.profileNps A ![1] d 2 0 = .ok θ2 ∧ m.nll A ![1] θ1 d false = .ok (.fin v1) ∧
      m.nll A ![1] θ2 d false = .ok (.fin v2) ∧ v1 < v2 := by
  obtain ⟨A, hA, hs⟩ := Demo.np1_internal true false
  let d : Mdl.DataV 1 := ⟨fun _ => 6, 0⟩
  have h1 : (Demo.np1 true false).profile A ![1] 0 d = .ok (fun _ => 2) := by
    obtain ⟨s, h1, h2, h3⟩ := Demo.np1_pq false hs ![1] 0 d
    have hp : s.p 0 0 = 5 / 4 := by rw [h2]; norm_num
    have hq : s.q 0 = -5 / 2 := by rw [h3]; norm_num [d]
    rw [Demo.profile1 h1 (by rw [hp]; norm_num [abs_of_pos]), hp, hq]
    norm_num
  have h2 : (Demo.np1 true false).profile A ![1] (fun _ => 2) d = .ok (fun _ => 3) := by
    obtain ⟨s, h1, h2, h3⟩ := Demo.np1_pq false hs ![1] (fun _ => 2) d
    have hp : s.p 0 0 = 2 := by rw [h2]; norm_num
    have hq : s.q 0 = -2 := by rw [h3]; norm_num [d]
    rw [Demo.profile1 h1 (by rw [hp]; norm_num [abs_of_pos]), hp, hq]
    norm_num
  refine ⟨Demo.np1 true false, A, d, fun _ => 2, fun _ => 3, _, _, hA, rfl, rfl, rfl,
    by simp only [Mdl.profileNps, h1, bind_ok], by simp only [Mdl.profileNps, h1, h2, bind_ok],
    Demo.np1_nll false hs _ _ d, Demo.np1_nll false hs _ _ d, ?_⟩
  norm_num [d]

/-- Finding F11: with `use_lognormal_terms` and a Gaussian channel, `P` is not the Hessian of the NLL with
exponentiated impacts: the second-derivative term of the Gaussian bins is counted twice. -/
theorem c18_lognormal_gaussian_fails :
    ∃ (m : Mdl 1 1) (A : Mdl.Arrays) (d : Mdl.DataV 1) (s : Mdl.PQ 1) (ne : Nat → Nat → ℝ)
      (G : (Fin 1 → ℝ) → Fin 1 → ℝ),
      m.setInternal = .ok A ∧ m.use_lognormal_terms = true ∧ m.HSymm ∧ m.nExp A ![1] 0 = .ok ne ∧
      m.pq A ![1] 0 d = .ok s ∧
      (∀ θ, HasGrad (fun θ => m.nllVal (fun b => m.expY ne A.sym 0 b θ) θ d false) (G θ) θ) ∧
      G 0 = s.q ∧ ¬ HasGrad (fun θ => G θ 0) (fun i => s.p i 0) 0 := by
  obtain ⟨A, hA, hs⟩ := Demo.np1_internal true true
  let d : Mdl.DataV 1 := ⟨fun _ => 6, 0⟩
  have hS := Demo.np1_symm true true
  obtain ⟨s, h1, h2, _⟩ := Demo.np1_pq true hs ![1] 0 d
  obtain ⟨ne, hne, hne0⟩ := Demo.np1_ne true true hs ![1] 0
  obtain ⟨ne', hne', _, _, hsp, hsq⟩ := Mdl.pq_inv h1
  have : ne = ne' := Except.ok.inj (hne.symm.trans hne')
  subst this
  have hsh := Demo.np1_shapes true true
  have hnb : ∀ b, ¬ b < (Demo.np1 true true).nbinsPoisson := fun b hb => by rw [hsh.2.2.1] at hb; simp at hb
  have hT0 := (Demo.np1 true true).expY_self ne A.sym 0
  let J : Nat → (Fin 1 → ℝ) → Fin 1 → ℝ := fun b θ a => ∑ s ∈ Finset.range (Demo.np1 true true).maxSamples,
      ne s b * (Real.exp (∑ a : Fin 1, A.sym s b a * (θ a - (0 : Fin 1 → ℝ) a)) * A.sym s b a)
  have hJ : ∀ b θ, HasGrad ((Demo.np1 true true).expY ne A.sym 0 b) (J b θ) θ :=
    fun b θ => (Demo.np1 true true).expY_hasGrad ne A.sym 0 b θ
  refine ⟨Demo.np1 true true, A, d, s, ne,
    (Demo.np1 true true).npGrad d ((Demo.np1 true true).expY ne A.sym 0) J, hA, rfl, hS, hne, h1, ?_, ?_, ?_⟩
  · intro θ
    exact Mdl.nll_np_hasGrad hS (fun b => hJ b θ) (fun b hb => absurd hb (hnb b))
  · rw [hsq]
    exact (Mdl.q_eq hT0 (fun b a => by simp [J]) (fun b hb => absurd hb (hnb b))).symm
  · intro hg
    have h := Mdl.npGrad_hasGrad (m := Demo.np1 true true) (d := d) (J := J)
      (K := fun b i j => ∑ s ∈ Finset.range (Demo.np1 true true).maxSamples,
        ne s b * (Real.exp (∑ a : Fin 1, A.sym s b a * ((0 : Fin 1 → ℝ) a - (0 : Fin 1 → ℝ) a)) *
          A.sym s b i * A.sym s b j))
      (fun b => hJ b 0) (fun b hb => absurd hb (hnb b)) 0
      (fun b => (Demo.np1 true true).expY_grad_hasGrad ne A.sym 0 b 0 0)
    have e := congrFun (hg.unique h) 0
    rw [h2] at e
    simp only [hsh.2.2.1, hsh.2.2.2, hsh.2.1, Mdl.bil, J, Finset.sum_range_one, if_true, Finset.range_zero,
      Finset.sum_empty, zero_add, hne0, hs, Mdl.constraintHessian, Matrix.diagonal_apply_eq, Demo.np1_weight,
      Demo.np1_hessian, Fin.val_zero, Fin.sum_univ_one, Mdl.expY] at e
    norm_num [d] at e

/-- The hypotheses of `c18_exact_derivatives`, `c18_profile_minimises` and `c18_well_conditioned` are met by a
Poisson model (3 events observed, 1 expected). -/
example : ∃ (m : Mdl 1 1) (A : Mdl.Arrays) (N : Nat → ℝ) (s : Mdl.PQ 1), m.setInternal = .ok A ∧
    m.use_asym_impacts = false ∧ m.use_linear_nps = true ∧ m.cutoff = 0 ∧
    m.use_lognormal_terms = false ∧ m.HSymm ∧ m.HPsd ∧ m.nbinsPoisson = 1 ∧ m.totBinExp A ![1] 0 = .ok N ∧
    (∀ b < m.nbinsPoisson, 0 < N b) ∧ m.pq A ![1] 0 ⟨fun _ => 3, 0⟩ = .ok s ∧
    (1 / 1000) ^ 1 ≤ |s.p.det| ∧
    (∀ p, ∃ c, (m.nps p).scaledConstraint = .ok c ∧ c ≠ 0 ∧ |c| ≤ 1) := by
  obtain ⟨A, hA, hs⟩ := Demo.np1_internal false false
  obtain ⟨ne, h1, h2⟩ := Demo.np1_ne false false hs ![1] 0
  have hsh := Demo.np1_shapes false false
  have hpos : ∀ b < (Demo.np1 false false).nbinsPoisson,
      0 < ∑ s ∈ Finset.range (Demo.np1 false false).maxSamples, ne s b := by
    intro b hb
    rw [hsh.2.2.1] at hb
    have : b = 0 := by simpa using hb
    subst this
    rw [hsh.2.1, Finset.sum_range_one, h2]; norm_num
  have hw : ∀ p, ∃ c, ((Demo.np1 false false).nps p).scaledConstraint = .ok c ∧ c ≠ 0 ∧ |c| ≤ 1 := by
    intro p
    have : p = 0 := Subsingleton.elim _ _
    subst this
    exact ⟨1, by simp [Demo.np1, NP.scaledConstraint], by norm_num, by norm_num⟩
  obtain ⟨s, hq⟩ := Mdl.pq_ok ⟨fun _ => 3, 0⟩ h1 (Or.inr rfl) (fun b hb => (hpos b hb).ne')
  refine ⟨Demo.np1 false false, A, _, s, hA, rfl, rfl, rfl, rfl, Demo.np1_symm _ _, Demo.np1_psd _ _,
    by rw [hsh.2.2.1]; rfl, by simp only [Mdl.totBinExp, h1, bind_ok]; rfl, hpos, hq, ?_, hw⟩
  exact c18_well_conditioned _ A _ 0 _ rfl (Demo.np1_symm _ _) (Demo.np1_psd _ _)
    (fun b _ => by norm_num) hw s hq

/-- The hypotheses of `c19_gaussian_exact` are met, with 6 events observed for 1 expected: the NP moves to 2. -/
example : ∃ (m : Mdl 1 1) (A : Mdl.Arrays) (s : Mdl.PQ 1), m.setInternal = .ok A ∧ m.HSymm ∧ m.HPsd ∧
    m.nbinsPoisson = 0 ∧ m.pq A ![1] 0 ⟨fun _ => 6, 0⟩ = .ok s ∧ (1 / 1000) ^ 1 ≤ |s.p.det| ∧
    m.profile A ![1] 0 ⟨fun _ => 6, 0⟩ = .ok (fun _ => 2) := by
  obtain ⟨A, hA, hs⟩ := Demo.np1_internal true false
  obtain ⟨s, h1, h2, h3⟩ := Demo.np1_pq false hs ![1] 0 ⟨fun _ => 6, 0⟩
  have hp : s.p 0 0 = 5 / 4 := by rw [h2]; norm_num
  have hq : s.q 0 = -5 / 2 := by rw [h3]; norm_num
  refine ⟨Demo.np1 true false, A, s, hA, Demo.np1_symm _ _, Demo.np1_psd _ _,
    (Demo.np1_shapes true false).2.2.1, h1, ?_, ?_⟩
  · have : s.p.det = s.p 0 0 := by simp
    rw [this, hp]; norm_num [abs_of_pos]
  · rw [Demo.profile1 h1 (by rw [hp]; norm_num [abs_of_pos]), hp, hq]
    norm_num

end Verif.Props
