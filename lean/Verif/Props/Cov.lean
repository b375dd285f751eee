import Verif.Model.Cov
import Verif.Props.NLL
import Verif.Lemmas.FitData
import Mathlib.LinearAlgebra.Matrix.ToLinearEquiv
/-!
# C62: covariance matrix, parabolic errors and correlations of the POIs

`quadForm H δ` is `δᵀ H δ`: with `H` the matrix of second derivatives of the NLL (C15), `quadForm H δ / 2` is
the quadratic approximation of the change of the NLL around a minimum.
-/
namespace Verif.Props
open Verif Filter Topology
variable {n P : Nat}

/-- Specification: the quadratic form of a matrix. -/
def quadForm (H : Fin n → Fin n → ℝ) (δ : Fin n → ℝ) : ℝ := ∑ i, ∑ j, δ i * H i j * δ j

/-- Specification: positive definite. -/
def PosDefinite (H : Fin n → Fin n → ℝ) : Prop := ∀ δ : Fin n → ℝ, δ ≠ 0 → 0 < quadForm H δ

namespace Cov

theorem quadForm_eq (H : Fin n → Fin n → ℝ) (δ : Fin n → ℝ) :
    quadForm H δ = δ ⬝ᵥ (Matrix.of H).mulVec δ := by
  simp only [quadForm, dotProduct, Matrix.mulVec, Finset.mul_sum, Matrix.of_apply, mul_assoc]

theorem cov_some {m : Mdl n P} {A : Mdl.Arrays} {x : Fin n → ℝ} {θ : Fin P → ℝ} {d : Mdl.DataV P}
    {C : Matrix (Fin n) (Fin n) ℝ} (h : m.covarianceMatrix A x θ d = some C) :
    ∃ H, m.hessian A x θ d = some H ∧ (Matrix.of H).det ≠ 0 ∧ C = (Matrix.of H)⁻¹ := by
  simp only [Mdl.covarianceMatrix] at h
  cases hh : m.hessian A x θ d with
  | none => rw [hh] at h; simp at h
  | some H =>
    rw [hh] at h
    by_cases h0 : (Matrix.of H).det = 0
    · simp [h0] at h
    · simp only [h0, if_false, Option.some.injEq] at h
      exact ⟨H, rfl, h0, h.symm⟩

/-- The quadratic form of the difference with a multiple of a column of the inverse. -/
theorem column_bound {H : Fin n → Fin n → ℝ} (hs : ∀ i j, H i j = H j i) (h0 : (Matrix.of H).det ≠ 0)
    (i : Fin n) (δ : Fin n → ℝ) (t : ℝ) :
    quadForm H (fun k => δ k - t * (Matrix.of H)⁻¹ k i) =
      quadForm H δ - 2 * t * δ i + t ^ 2 * (Matrix.of H)⁻¹ i i := by
  set M := Matrix.of H
  have hu : IsUnit M.det := isUnit_iff_ne_zero.2 h0
  have hT : M.transpose = M := by ext a b; exact hs b a
  set u : Fin n → ℝ := fun k => M⁻¹ k i
  have hMu : M.mulVec u = Pi.single i 1 := by
    have h1 := Matrix.mul_nonsing_inv M hu
    funext a
    have h2 := congrFun (congrFun h1 a) i
    simp only [Matrix.mul_apply, Matrix.one_apply] at h2
    simp only [Matrix.mulVec, dotProduct, u, h2, Pi.single_apply]
  have hδ : (fun k => δ k - t * M⁻¹ k i) = δ - t • u := by funext k; simp [u]
  rw [hδ, quadForm_eq, quadForm_eq]
  show (δ - t • u) ⬝ᵥ M.mulVec (δ - t • u) = _
  have hc : u ⬝ᵥ M.mulVec δ = δ ⬝ᵥ M.mulVec u := by
    rw [Matrix.dotProduct_mulVec, ← Matrix.mulVec_transpose, hT, dotProduct_comm]
  have h1 : δ ⬝ᵥ M.mulVec u = δ i := by rw [hMu]; simp
  have h2 : u ⬝ᵥ M.mulVec u = M⁻¹ i i := by rw [hMu]; simp [u]
  rw [Matrix.mulVec_sub, Matrix.mulVec_smul, dotProduct_sub, sub_dotProduct, sub_dotProduct,
    dotProduct_smul, dotProduct_smul, smul_dotProduct, smul_dotProduct, hc, h1, h2]
  simp only [smul_eq_mul]
  show _ = δ ⬝ᵥ M.mulVec δ - 2 * t * δ i + t ^ 2 * M⁻¹ i i
  ring

theorem column_form {H : Fin n → Fin n → ℝ} (hs : ∀ i j, H i j = H j i) (h0 : (Matrix.of H).det ≠ 0)
    (i : Fin n) (t : ℝ) :
    quadForm H (fun k => t * (Matrix.of H)⁻¹ k i) = t ^ 2 * (Matrix.of H)⁻¹ i i := by
  have h := column_bound hs h0 i 0 (-t)
  simp only [Pi.zero_apply, zero_sub, neg_mul, neg_neg] at h
  rw [h]; simp [quadForm]

theorem diag_pos {H : Fin n → Fin n → ℝ} (hs : ∀ i j, H i j = H j i) (h0 : (Matrix.of H).det ≠ 0)
    (hp : PosDefinite H) (i : Fin n) : 0 < (Matrix.of H)⁻¹ i i := by
  have hne : (fun k => 1 * (Matrix.of H)⁻¹ k i) ≠ 0 := by
    intro h
    have h1 := congrFun (congrFun (Matrix.mul_nonsing_inv (Matrix.of H) (isUnit_iff_ne_zero.2 h0)) i) i
    rw [Matrix.mul_apply] at h1
    simp only [one_mul] at h
    rw [Finset.sum_eq_zero (fun k _ => by rw [congrFun h k]; simp)] at h1
    simp at h1
  have := hp _ hne
  rw [column_form hs h0] at this
  simpa using this

theorem inv_symm {H : Fin n → Fin n → ℝ} (hs : ∀ i j, H i j = H j i) (i j : Fin n) :
    (Matrix.of H)⁻¹ i j = (Matrix.of H)⁻¹ j i := by
  have hT : (Matrix.of H).transpose = Matrix.of H := by ext a b; exact hs b a
  have h := Matrix.transpose_nonsing_inv (Matrix.of H)
  rw [hT] at h
  exact congrFun (congrFun h j) i

theorem posdef_det {H : Fin n → Fin n → ℝ} (hp : PosDefinite H) : (Matrix.of H).det ≠ 0 := by
  intro h
  obtain ⟨v, hv, h0⟩ := Matrix.exists_mulVec_eq_zero_iff.2 h
  have := hp v hv
  rw [quadForm_eq, h0] at this
  simp at this

theorem errors_get {m : Mdl n P} (hd : Function.Injective m.pois) {A : Mdl.Arrays} {x : Fin n → ℝ}
    {θ : Fin P → ℝ} {d : Mdl.DataV P} {C} {cm : Option (Matrix (Fin n) (Fin n) ℝ)}
    (hC : m.covOf A x θ d cm = .ok C) :
    m.parabolicErrors A x θ d cm = .ok (List.ofFn fun i => (m.pois i, Mdl.errorsOf C i)) := by
  simp only [Mdl.parabolicErrors, hC, bind_ok, pure_ok]
  rw [Dict.setAll_nil_eq]
  rw [List.map_ofFn]
  exact List.nodup_ofFn.2 hd

theorem hessian_symm {m : Mdl n P} {A : Mdl.Arrays} (hD : m.ctx.Distinct) (hE : m.NoEmptyNorm)
    {x : Fin n → ℝ} {θ : Fin P → ℝ} {d : Mdl.DataV P} {N : Nat → ℝ}
    (hN : m.totBinExp A x θ = .ok N) {H : Fin n → Fin n → ℝ} (hH : m.hessian A x θ d = some H) :
    ∀ i j, H i j = H j i := by
  obtain ⟨vals, hx, hc, rfl⟩ := Mdl.tot_inv hN
  have hH' : m.hessianCore A x θ d = .ok H := by
    simp only [Mdl.hessian] at hH
    cases h : m.hessianCore A x θ d with
    | ok a => rw [h] at hH; simp [Except.toOption] at hH; rw [hH]
    | error e => rw [h] at hH; simp [Except.toOption] at hH
  obtain ⟨hex, rfl⟩ := Mdl.hessianCore_inv hD hx hc hE hH'
  intro i j
  refine Finset.sum_congr rfl (fun b _ => ?_)
  rw [Mdl.Hf_symm hD hx hc hE A θ b hex i j,
    mul_comm (Mdl.divOr0 (m.Gf A θ b x i) (m.Nf A θ b x))]

theorem pair_form (C : Fin n → Fin n → ℝ) (hs : ∀ i j, C i j = C j i) (i j : Fin n) (hij : i ≠ j)
    (s t : ℝ) : quadForm C (Function.update (Function.update (0 : Fin n → ℝ) i s) j t) =
      s ^ 2 * C i i + 2 * s * t * C i j + t ^ 2 * C j j := by
  have hδ : Function.update (Function.update (0 : Fin n → ℝ) i s) j t =
      s • Pi.single i (1 : ℝ) + t • Pi.single j (1 : ℝ) := by
    funext k
    by_cases hk : k = j
    · subst hk; simp [Function.update, Pi.single_apply, hij.symm]
    · by_cases hk' : k = i
      · subst hk'; simp [Function.update, Pi.single_apply, hk]
      · simp [Function.update, Pi.single_apply, hk, hk']
  rw [hδ, quadForm_eq, Matrix.mulVec_add, Matrix.mulVec_smul, Matrix.mulVec_smul]
  simp only [dotProduct_add, add_dotProduct, dotProduct_smul, smul_dotProduct, smul_eq_mul]
  simp [hs j i]
  ring

theorem cs_le {C : Fin n → Fin n → ℝ} (hs : ∀ i j, C i j = C j i) (hp : ∀ δ, 0 ≤ quadForm C δ)
    (h0 : ∀ i, 0 < C i i) (i j : Fin n) : C i j ^ 2 ≤ C i i * C j j := by
  by_cases hij : i = j
  · subst hij; rw [sq]
  · have h := hp (Function.update (Function.update (0 : Fin n → ℝ) i (C i j)) j (-C i i))
    rw [pair_form C hs i j hij] at h
    have h2 : 0 ≤ C i i * (C i i * C j j - C i j ^ 2) := by nlinarith
    have := (mul_nonneg_iff_of_pos_left (h0 i)).1 h2
    linarith

theorem cs_lt {C : Fin n → Fin n → ℝ} (hs : ∀ i j, C i j = C j i) (hp : PosDefinite C)
    (h0 : ∀ i, 0 < C i i) (i j : Fin n) (hij : i ≠ j) : C i j ^ 2 < C i i * C j j := by
  have hne : Function.update (Function.update (0 : Fin n → ℝ) i (C i j)) j (-C i i) ≠ 0 := by
    intro h
    have := congrFun h j
    simp at this
    exact (h0 i).ne' this
  have h := hp _ hne
  rw [pair_form C hs i j hij] at h
  have h2 : 0 < C i i * (C i i * C j j - C i j ^ 2) := by nlinarith
  have := (mul_pos_iff_of_pos_left (h0 i)).1 h2
  linarith

theorem inv_posdef {H : Fin n → Fin n → ℝ} (hs : ∀ i j, H i j = H j i) (hp : PosDefinite H) :
    PosDefinite (fun i j => (Matrix.of H)⁻¹ i j) := by
  intro δ hδ
  have h0 := posdef_det hp
  have hu : IsUnit (Matrix.of H).det := isUnit_iff_ne_zero.2 h0
  set M := Matrix.of H with hM
  have hw : M.mulVec (M⁻¹.mulVec δ) = δ := by
    rw [Matrix.mulVec_mulVec, Matrix.mul_nonsing_inv M hu, Matrix.one_mulVec]
  have hw0 : M⁻¹.mulVec δ ≠ 0 := by
    intro h
    rw [h, Matrix.mulVec_zero] at hw
    exact hδ hw.symm
  have := hp _ hw0
  rw [quadForm_eq, ← hM, hw, dotProduct_comm] at this
  rw [quadForm_eq]
  exact this

theorem posdef_diag {C : Fin n → Fin n → ℝ} (hp : PosDefinite C) (i : Fin n) : 0 < C i i := by
  have h := hp (Pi.single i 1) (by simp)
  rw [quadForm_eq] at h
  simpa using h

end Cov

/-- C62.  For a model with Poisson channels only, where the yields are positive: a matrix returned by
`covariance_matrix` is the inverse of the matrix `H` of second derivatives of the NLL with respect to the POIs
(the NLL is `f` near the point, `G` its gradient). -/
theorem c62_inverse (m : Mdl n P) (A : Mdl.Arrays) (hD : m.ctx.Distinct) (hE : m.NoEmptyNorm)
    (hG : m.nbinsGaussian = 0) (x : Fin n → ℝ) (θ : Fin P → ℝ) (d : Mdl.DataV P) (N : Nat → ℝ)
    (hN : m.totBinExp A x θ = .ok N) (hp : ∀ b < m.nbins, 0 < N b)
    (C : Matrix (Fin n) (Fin n) ℝ) (hC : m.covarianceMatrix A x θ d = some C) :
    ∃ (f : (Fin n → ℝ) → ℝ) (G : (Fin n → ℝ) → Fin n → ℝ) (H : Fin n → Fin n → ℝ),
      (∀ᶠ y in 𝓝 x, m.nll A y θ d false = .ok (.fin (f y)) ∧ HasGrad f (G y) y) ∧
      (∀ j, HasGrad (fun y => G y j) (fun i => H i j) x) ∧
      ∀ i k, ∑ j, H i j * C j k = if i = k then 1 else 0 := by
  obtain ⟨H, hH, h0, rfl⟩ := Cov.cov_some hC
  obtain ⟨⟨f, G, hev, hj⟩, _⟩ := c15_hessian m A hD hE hG x θ d N hN hp H hH
  refine ⟨f, G, H, hev.mono (fun y h => ⟨h.1, h.2.2⟩), hj, fun i k => ?_⟩
  have h1 := congrFun (congrFun (Matrix.mul_nonsing_inv (Matrix.of H) (isUnit_iff_ne_zero.2 h0)) i) k
  simpa [Matrix.mul_apply, Matrix.one_apply] using h1

/-- C62: there is no covariance matrix exactly if there is no Hessian, or the NLL is flat (to second order)
in some direction of the POIs. -/
theorem c62_none_iff (m : Mdl n P) (A : Mdl.Arrays) (x : Fin n → ℝ) (θ : Fin P → ℝ) (d : Mdl.DataV P) :
    m.covarianceMatrix A x θ d = none ↔ m.hessian A x θ d = none ∨
      ∃ H, m.hessian A x θ d = some H ∧ ∃ δ : Fin n → ℝ, δ ≠ 0 ∧ ∀ i, ∑ j, H i j * δ j = 0 := by
  simp only [Mdl.covarianceMatrix]
  cases hh : m.hessian A x θ d with
  | none => simp
  | some H =>
    simp only [reduceCtorEq, Option.some.injEq, false_or, exists_eq_left', ite_eq_left_iff]
    rw [← Matrix.exists_mulVec_eq_zero_iff]
    constructor
    · intro h
      by_contra hn
      exact h (fun ⟨v, hv, h0⟩ => hn ⟨v, hv, fun i => congrFun h0 i⟩)
    · rintro ⟨v, hv, h0⟩ hn
      exact absurd ⟨v, hv, funext h0⟩ hn

/-- C62: then the errors and the correlation matrix are not available (`AttributeError`), unless a covariance
matrix is given by the caller. -/
theorem c62_no_covariance (m : Mdl n P) (A : Mdl.Arrays) (x : Fin n → ℝ) (θ : Fin P → ℝ) (d : Mdl.DataV P)
    (h : m.covarianceMatrix A x θ d = none) :
    m.parabolicErrors A x θ d = .error .attributeError ∧
    m.correlationMatrix A x θ d = .error .attributeError := by
  simp [Mdl.parabolicErrors, Mdl.correlationMatrix, Mdl.covOf, h]

/-- C62: the meaning of the parabolic errors.  Where the matrix `H` of second derivatives is positive definite
(e.g. at a minimum), every POI has an error, a positive number `σ`: moving that POI by `σ` either way raises the
quadratic approximation of the NLL by at least 1/2 whatever the other POIs do, and by exactly 1/2 for some
values of the others. -/
theorem c62_errors (m : Mdl n P) (A : Mdl.Arrays) (hD : m.ctx.Distinct) (hE : m.NoEmptyNorm)
    (hd : Function.Injective m.pois)
    (x : Fin n → ℝ) (θ : Fin P → ℝ) (d : Mdl.DataV P) (N : Nat → ℝ)
    (hN : m.totBinExp A x θ = .ok N) (H : Fin n → Fin n → ℝ) (hH : m.hessian A x θ d = some H)
    (hp : PosDefinite H) :
    ∃ E, m.parabolicErrors A x θ d = .ok E ∧ E.keys = List.ofFn m.pois ∧
      ∀ i, ∃ σ : ℝ, E.get? (m.pois i) = some (.fin σ) ∧ 0 < σ ∧
        (∀ δ : Fin n → ℝ, |δ i| = σ → 1 / 2 ≤ quadForm H δ / 2) ∧
        (∃ δ : Fin n → ℝ, δ i = σ ∧ quadForm H δ / 2 = 1 / 2) ∧
        ∃ δ : Fin n → ℝ, δ i = -σ ∧ quadForm H δ / 2 = 1 / 2 := by
  have h0 := Cov.posdef_det hp
  have hs := Cov.hessian_symm hD hE hN hH
  have hC : m.covOf A x θ d none = .ok (Matrix.of H)⁻¹ := by
    simp [Mdl.covOf, Mdl.covarianceMatrix, hH, h0]
  refine ⟨_, Cov.errors_get hd hC, by simp [Dict.keys, List.map_ofFn, Function.comp_def], fun i => ?_⟩
  have hc := Cov.diag_pos hs h0 hp i
  set c := (Matrix.of H)⁻¹ i i with hcd
  have hsq : Real.sqrt c ^ 2 = c := Real.sq_sqrt hc.le
  have hσ : 0 < Real.sqrt c := Real.sqrt_pos.2 hc
  refine ⟨Real.sqrt c, ?_, hσ, fun δ hδ => ?_, ?_, ?_⟩
  · rw [Dict.get?_ofFn _ _ hd]
    simp [Mdl.errorsOf, Flt.sqrt, ← hcd, hc.le]
  · have h1 := Cov.column_bound hs h0 i δ (δ i / c)
    rw [← hcd] at h1
    have h2 : δ i ^ 2 = c := by rw [← sq_abs, hδ, hsq]
    have h3 : 0 ≤ quadForm H (fun k => δ k - δ i / c * (Matrix.of H)⁻¹ k i) := by
      by_cases hz : (fun k => δ k - δ i / c * (Matrix.of H)⁻¹ k i) = 0
      · rw [hz]; simp [quadForm]
      · exact (hp _ hz).le
    rw [h1] at h3
    have h4 : (δ i / c) ^ 2 * c = 1 := by rw [div_pow, h2]; field_simp
    have h5 : 2 * (δ i / c) * δ i = 2 := by
      rw [mul_assoc, div_mul_eq_mul_div, ← sq, h2, div_self hc.ne']; norm_num
    rw [h4, h5] at h3
    linarith
  · refine ⟨fun k => 1 / Real.sqrt c * (Matrix.of H)⁻¹ k i, ?_, ?_⟩
    · show _ * (Matrix.of H)⁻¹ i i = _
      rw [← hcd]; field_simp; rw [hsq]
    · rw [Cov.column_form hs h0, ← hcd, div_pow, hsq]; field_simp
  · refine ⟨fun k => -(1 / Real.sqrt c) * (Matrix.of H)⁻¹ k i, ?_, ?_⟩
    · show _ * (Matrix.of H)⁻¹ i i = _
      rw [← hcd]; field_simp; rw [hsq]
    · rw [Cov.column_form hs h0, ← hcd, neg_sq, div_pow, hsq]; field_simp

/-- C62: the covariance matrix returned where `H` is positive definite is itself positive definite and
symmetric. -/
theorem c62_covariance_posdef (m : Mdl n P) (A : Mdl.Arrays) (hD : m.ctx.Distinct) (hE : m.NoEmptyNorm)
    (x : Fin n → ℝ) (θ : Fin P → ℝ) (d : Mdl.DataV P) (N : Nat → ℝ)
    (hN : m.totBinExp A x θ = .ok N) (H : Fin n → Fin n → ℝ) (hH : m.hessian A x θ d = some H)
    (hp : PosDefinite H) :
    ∃ C, m.covarianceMatrix A x θ d = some C ∧ PosDefinite C ∧ ∀ i j, C i j = C j i := by
  have hs := Cov.hessian_symm hD hE hN hH
  refine ⟨(Matrix.of H)⁻¹, ?_, Cov.inv_posdef hs hp, Cov.inv_symm hs⟩
  simp [Mdl.covarianceMatrix, hH, Cov.posdef_det hp]

/-- C62: correlations.  For a symmetric positive semi-definite covariance matrix with positive variances
(computed, or given by the caller), the correlation matrix consists of numbers `ρ` with 1 on the diagonal,
symmetric, between -1 and 1 — strictly, off the diagonal, if the covariance is definite — and
`C i j = ρ i j * σ i * σ j` with the `σ` returned by `parabolic_errors`. -/
theorem c62_correlation (m : Mdl n P) (A : Mdl.Arrays) (hd : Function.Injective m.pois)
    (x : Fin n → ℝ) (θ : Fin P → ℝ) (d : Mdl.DataV P)
    (covmat : Option (Matrix (Fin n) (Fin n) ℝ)) (C : Matrix (Fin n) (Fin n) ℝ)
    (hC : covmat = some C ∨ covmat = none ∧ m.covarianceMatrix A x θ d = some C)
    (hs : ∀ i j, C i j = C j i) (hp : ∀ δ, 0 ≤ quadForm C δ) (h0 : ∀ i, 0 < C i i) :
    ∃ (R : Fin n → Fin n → Flt) (E : Dict Flt) (ρ : Fin n → Fin n → ℝ) (σ : Fin n → ℝ),
      m.correlationMatrix A x θ d covmat = .ok R ∧ m.parabolicErrors A x θ d covmat = .ok E ∧
      (∀ i j, R i j = .fin (ρ i j)) ∧ (∀ i, E.get? (m.pois i) = some (.fin (σ i))) ∧
      (∀ i, ρ i i = 1) ∧ (∀ i j, ρ i j = ρ j i) ∧ (∀ i j, |ρ i j| ≤ 1) ∧
      (∀ i j, C i j = ρ i j * σ i * σ j) ∧
      (PosDefinite C → ∀ i j, i ≠ j → |ρ i j| < 1) := by
  have hC' : m.covOf A x θ d covmat = .ok C := by
    rcases hC with rfl | ⟨rfl, h⟩ <;> simp [Mdl.covOf, *]
  have hσ : ∀ i, 0 < Real.sqrt (C i i) := fun i => Real.sqrt_pos.2 (h0 i)
  have hσ2 : ∀ i, Real.sqrt (C i i) * Real.sqrt (C i i) = C i i := fun i => Real.mul_self_sqrt (h0 i).le
  refine ⟨fun i j => Flt.quot (Flt.quot (.fin (C i j)) (Mdl.errorsOf C i)) (Mdl.errorsOf C j), _,
    fun i j => C i j / Real.sqrt (C i i) / Real.sqrt (C j j), fun i => Real.sqrt (C i i),
    by simp only [Mdl.correlationMatrix, hC', bind_ok, pure_ok], Cov.errors_get hd hC',
    ?_, ?_, ?_, ?_, ?_, ?_, ?_⟩
  · intro i j
    simp [Mdl.errorsOf, Flt.sqrt, (h0 i).le, (h0 j).le, Flt.quot, Flt.div, (hσ i).ne', (hσ j).ne']
  · intro i
    rw [Dict.get?_ofFn _ _ hd]
    simp [Mdl.errorsOf, Flt.sqrt, (h0 i).le]
  · intro i
    dsimp only
    rw [div_div, hσ2, div_self (h0 i).ne']
  · intro i j
    dsimp only
    rw [div_div, div_div, hs i j, mul_comm]
  · intro i j
    have h1 := Cov.cs_le hs hp h0 i j
    dsimp only
    rw [div_div, abs_div, abs_of_pos (mul_pos (hσ i) (hσ j)), div_le_one (mul_pos (hσ i) (hσ j))]
    refine abs_le_of_sq_le_sq ?_ (mul_pos (hσ i) (hσ j)).le
    rw [mul_pow, Real.sq_sqrt (h0 i).le, Real.sq_sqrt (h0 j).le]
    exact h1
  · intro i j
    have := (hσ i).ne'
    have := (hσ j).ne'
    field_simp
  · intro hpd i j hij
    have h1 := Cov.cs_lt hs hpd h0 i j hij
    dsimp only
    rw [div_div, abs_div, abs_of_pos (mul_pos (hσ i) (hσ j)), div_lt_one (mul_pos (hσ i) (hσ j))]
    refine abs_lt_of_sq_lt_sq ?_ (mul_pos (hσ i) (hσ j)).le
    rw [mul_pow, Real.sq_sqrt (h0 i).le, Real.sq_sqrt (h0 j).le]
    exact h1

/-- C62: for the Asimov dataset of the point itself the inverse covariance is the Fisher information
`∑_b ∂_i N_b ∂_j N_b / N_b` of the expected yields `N_b`. -/
theorem c62_asimov_fisher (m : Mdl n P) (A : Mdl.Arrays) (hD : m.ctx.Distinct) (hE : m.NoEmptyNorm)
    (x : Fin n → ℝ) (θ : Fin P → ℝ) (d : Mdl.DataV P) (hd : m.generateAsimov A x θ = .ok d)
    (hp : ∀ b < m.nbins, 0 < d.counts b) (H : Fin n → Fin n → ℝ) (hH : m.hessian A x θ d = some H) :
    ∃ (N : Nat → (Fin n → ℝ) → ℝ) (g : Nat → Fin n → ℝ),
      (∀ᶠ y in 𝓝 x, ∃ t, m.totBinExp A y θ = .ok t ∧ ∀ b, t b = N b y) ∧
      (∀ b, HasGrad (N b) (g b) x) ∧
      (∀ i j, H i j = ∑ b ∈ Finset.range m.nbins, g b i * g b j / N b x) ∧
      (∀ δ, 0 ≤ quadForm H δ) ∧
      ((∃ C, m.covarianceMatrix A x θ d = some C) → PosDefinite H) := by
  simp only [Mdl.generateAsimov] at hd
  obtain ⟨N0, hN, hd⟩ := bind_eq_ok.1 hd
  have hd := Except.ok.inj hd
  subst hd
  obtain ⟨vals, hx, hc, rfl⟩ := Mdl.tot_inv hN
  have hH' : m.hessianCore A x θ ⟨m.totAt A vals θ, θ⟩ = .ok H := by
    simp only [Mdl.hessian] at hH
    cases h : m.hessianCore A x θ ⟨m.totAt A vals θ, θ⟩ with
    | ok a => rw [h] at hH; simp [Except.toOption] at hH; rw [hH]
    | error e => rw [h] at hH; simp [Except.toOption] at hH
  obtain ⟨hex, hHe⟩ := Mdl.hessianCore_inv hD hx hc hE hH'
  have hpf : ∀ b < m.nbins, 0 < m.Nf A θ b x := fun b hb => by
    rw [← Mdl.totAt_eq_Nf hx hE]; exact hp b hb
  have hF : ∀ i j, H i j = ∑ b ∈ Finset.range m.nbins,
      m.Gf A θ b x i * m.Gf A θ b x j / m.Nf A θ b x := by
    intro i j
    rw [hHe]
    refine Finset.sum_congr rfl (fun b hb => ?_)
    have hb' := (hpf b (Finset.mem_range.1 hb)).ne'
    simp only [Mdl.totAt_eq_Nf hx hE, Mdl.divOr0_of_ne hb']
    field_simp
    ring
  have hq : ∀ δ, quadForm H δ = ∑ b ∈ Finset.range m.nbins,
      (∑ i, δ i * m.Gf A θ b x i) ^ 2 / m.Nf A θ b x := by
    intro δ
    simp only [quadForm, hF, Finset.mul_sum, Finset.sum_mul]
    rw [Finset.sum_congr rfl (fun i _ => Finset.sum_comm), Finset.sum_comm]
    refine Finset.sum_congr rfl (fun b _ => ?_)
    rw [sq, Finset.sum_mul_sum, Finset.sum_div]
    refine Finset.sum_congr rfl (fun i _ => ?_)
    rw [Finset.sum_div]
    exact Finset.sum_congr rfl (fun j _ => by ring)
  have hpsd : ∀ δ, 0 ≤ quadForm H δ := fun δ => by
    rw [hq]
    exact Finset.sum_nonneg (fun b hb => div_nonneg (sq_nonneg _) (hpf b (Finset.mem_range.1 hb)).le)
  refine ⟨m.Nf A θ, fun b => m.Gf A θ b x, ?_, fun b => Mdl.Nf_hasGrad hD hx hc hE A θ b, hF, hpsd, ?_⟩
  · filter_upwards [Mdl.eventually_computable hD hx hc] with y ⟨vy, hy, hcy⟩
    exact ⟨_, Mdl.tot_ok A θ hy hcy, fun b => Mdl.totAt_eq_Nf hy hE A θ b⟩
  · rintro ⟨C, hC⟩ δ hδ
    obtain ⟨H', hH1, hdet, _⟩ := Cov.cov_some hC
    have hHH : H' = H := Option.some.inj (hH1.symm.trans hH)
    subst hHH
    refine lt_of_le_of_ne (hpsd δ) (fun h0 => ?_)
    rw [hq] at h0
    have hz : ∀ b ∈ Finset.range m.nbins, ∑ i, δ i * m.Gf A θ b x i = 0 := by
      intro b hb
      have := (Finset.sum_eq_zero_iff_of_nonneg (fun b hb =>
        div_nonneg (sq_nonneg _) (hpf b (Finset.mem_range.1 hb)).le)).1 h0.symm b hb
      rw [div_eq_zero_iff] at this
      rcases this with h | h
      · exact pow_eq_zero_iff (two_ne_zero) |>.1 h
      · exact absurd h (hpf b (Finset.mem_range.1 hb)).ne'
    apply hdet
    refine Matrix.exists_mulVec_eq_zero_iff.1 ⟨δ, hδ, ?_⟩
    funext i
    simp only [Matrix.mulVec, dotProduct, Matrix.of_apply, hF, Finset.sum_mul, Pi.zero_apply]
    rw [Finset.sum_comm]
    refine Finset.sum_eq_zero (fun b hb => ?_)
    calc ∑ j, m.Gf A θ b x i * m.Gf A θ b x j / m.Nf A θ b x * δ j
        = m.Gf A θ b x i / m.Nf A θ b x * ∑ j, δ j * m.Gf A θ b x j := by
          rw [Finset.mul_sum]; exact Finset.sum_congr rfl (fun j _ => by ring)
      _ = 0 := by rw [hz b hb, mul_zero]

/-- C62: a negative variance (the matrix of second derivatives is not positive, e.g. far from the minimum)
gives the error `nan`, silently. -/
theorem c62_negative_variance (m : Mdl n P) (A : Mdl.Arrays) (hd : Function.Injective m.pois)
    (x : Fin n → ℝ) (θ : Fin P → ℝ) (d : Mdl.DataV P) (C : Matrix (Fin n) (Fin n) ℝ)
    (hC : m.covarianceMatrix A x θ d = some C) (i : Fin n) :
    ∃ E, m.parabolicErrors A x θ d = .ok E ∧ (E.get? (m.pois i) = some .nan ↔ C i i < 0) := by
  have hC' : m.covOf A x θ d none = .ok C := by simp [Mdl.covOf, hC]
  refine ⟨_, Cov.errors_get hd hC', ?_⟩
  rw [Dict.get?_ofFn _ _ hd]
  simp only [Mdl.errorsOf, Flt.sqrt, Option.some.injEq]
  by_cases h : 0 ≤ C i i
  · simp [h]
  · simp [h, lt_of_not_ge h]

/-- The hypotheses of the theorems above are met by the demo model (yields `x + 5`, `2 x + 6`) with its Asimov
dataset at `mu = 1`: the Hessian is `1/6 + 4/8`, the error `sqrt(3/2)`. -/
example (A : Mdl.Arrays) : ∃ (d : Mdl.DataV 1) (H : Fin 1 → Fin 1 → ℝ) (C : Matrix (Fin 1) (Fin 1) ℝ),
    (Demo.mdl false true).generateAsimov A ![1] 0 = .ok d ∧ (∀ b < 2, 0 < d.counts b) ∧
    (Demo.mdl false true).hessian A ![1] 0 d = some H ∧ PosDefinite H ∧ H 0 0 = 2 / 3 ∧
    (Demo.mdl false true).covarianceMatrix A ![1] 0 d = some C ∧ C 0 0 = 3 / 2 := by
  obtain ⟨N, hN, h0, h1⟩ := Demo.tot true A ![1]
  have hd : (Demo.mdl false true).generateAsimov A ![1] 0 = .ok ⟨N, 0⟩ := by
    simp [Mdl.generateAsimov, hN]
  obtain ⟨H, hH⟩ := c15_hessian_exists (Demo.mdl false true) A (Demo.distinct _ _) (Demo.noEmpty _ _) ![1] 0
    ⟨N, 0⟩ N hN _ (Demo.vals _ _ _) (by simp [Demo.mdl])
  have hpos : ∀ b < 2, 0 < N b := by
    intro b hb
    interval_cases b
    · rw [h0]; norm_num
    · rw [h1]; norm_num
  obtain ⟨M, g, hev, hg, hF, _, _⟩ := c62_asimov_fisher (Demo.mdl false true) A (Demo.distinct _ _)
    (Demo.noEmpty _ _) ![1] 0 ⟨N, 0⟩ hd (by rw [(Demo.shapes _ _).1]; exact hpos) H hH
  have hM : ∀ b, b < 2 → ∀ᶠ y in 𝓝 (![1] : Fin 1 → ℝ), M b y = if b = 0 then y 0 + 5 else y 0 * 2 + 6 := by
    intro b hb
    filter_upwards [hev] with y ⟨t, ht, hb'⟩
    obtain ⟨N', hN', e0, e1⟩ := Demo.tot true A y
    have : t = N' := Except.ok.inj (ε := PyErr) (ht.symm.trans hN')
    subst this
    interval_cases b
    · rw [← hb', e0]; rfl
    · rw [← hb', e1]; rfl
  have g0 : g 0 0 = 1 := by
    have h := (hasGrad_proj (0 : Fin 1) ![(1:ℝ)]).add (hasGrad_const 5 _)
    have := (hg 0).unique (h.congr (hM 0 (by norm_num)))
    rw [this]; simp
  have g1 : g 1 0 = 2 := by
    have h := ((hasGrad_proj (0 : Fin 1) ![(1:ℝ)]).const_mul 2).add (hasGrad_const 6 _)
    have := (hg 1).unique (h.congr ((hM 1 (by norm_num)).mono (fun y hy => by
      rw [hy]; simp [mul_comm])))
    rw [this]; simp
  have m0 : M 0 ![1] = 6 := by rw [(hM 0 (by norm_num)).self_of_nhds]; norm_num
  have m1 : M 1 ![1] = 8 := by rw [(hM 1 (by norm_num)).self_of_nhds]; norm_num
  have hH0 : H 0 0 = 2 / 3 := by
    rw [hF, (Demo.shapes _ _).1, Finset.sum_range_succ, Finset.sum_range_one, g0, g1, m0, m1]; norm_num
  have hp : PosDefinite H := by
    intro δ hδ
    have : δ 0 ≠ 0 := fun h => hδ (funext fun i => by rw [Subsingleton.elim i 0, h]; rfl)
    have h2 : 0 < δ 0 ^ 2 := by positivity
    simp only [quadForm, Fin.sum_univ_one, hH0]
    nlinarith
  refine ⟨⟨N, 0⟩, H, (Matrix.of H)⁻¹, hd, hpos, hH, hp, hH0, ?_, ?_⟩
  · simp only [Mdl.covarianceMatrix, hH, Cov.posdef_det hp, if_false]
  · rw [Matrix.inv_def, Matrix.det_fin_one]
    simp [hH0]

end Verif.Props
