import Verif.Lemmas.NLL
/-! Infinite values of the NLL, offsets, and the Asimov inequality. -/
namespace Verif
namespace Flt

/-- `+inf` or `nan`: becomes `+Inf` in the NLL. -/
def Bad : Flt → Prop
  | pinf => True
  | nan => True
  | _ => False

/-- a number, `+inf` or `nan` -/
def Up : Flt → Prop
  | ninf => False
  | _ => True

theorem bad_add {a b : Flt} (ha : Up a) (hb : Up b) (h : Bad a ∨ Bad b) : Bad (add a b) := by
  cases a <;> cases b <;> simp_all [Bad, Up, add]

theorem up_add {a b : Flt} (ha : Up a) (hb : Up b) : Up (add a b) := by
  cases a <;> cases b <;> simp_all [Up, add]

theorem up_sum {α : Type} (l : List α) (f : α → Flt) (h : ∀ a ∈ l, Up (f a)) : Up (sum (l.map f)) := by
  induction l with
  | nil => trivial
  | cons a l ih => exact up_add (h a (by simp)) (ih (fun b hb => h b (by simp [hb])))

theorem bad_sum {α : Type} (l : List α) (f : α → Flt) (h : ∀ a ∈ l, Up (f a)) {a : α} (ha : a ∈ l)
    (hb : Bad (f a)) : Bad (sum (l.map f)) := by
  induction l with
  | nil => cases ha
  | cons c l ih =>
    have hl := fun b hb => h b (List.mem_cons_of_mem c hb)
    refine bad_add (h c (by simp)) (up_sum l f hl) ?_
    rcases List.mem_cons.1 ha with rfl | ha
    · exact Or.inl hb
    · exact Or.inr (ih hl ha)

theorem bad_up {a : Flt} (h : Bad a) : Up a := by cases a <;> simp_all [Bad, Up]

theorem bad_add_fin {a : Flt} (h : Bad a) (r : ℝ) : Bad (add a (fin r)) :=
  bad_add (bad_up h) trivial (Or.inl h)

theorem bad_nanToInf {a : Flt} (h : Bad a) : nanToInf a = pinf := by
  cases a <;> simp_all [Bad, nanToInf]
end Flt

namespace Mdl
open Flt
variable {n P : Nat}

theorem poissonTerm_bad {N c : ℝ} (hc : 0 ≤ c) (h : N ≤ 0) : Bad (poissonTerm N c) := by
  have h1 : ¬ 0 < N := not_lt.2 h
  simp only [poissonTerm, Flt.log, h1, if_false]
  by_cases h0 : N = 0
  · simp only [h0, if_true, smul]
    by_cases hc0 : c = 0
    · simp [hc0, Flt.neg, Flt.add, Bad]
    · have : 0 < c := lt_of_le_of_ne hc (Ne.symm hc0)
      simp [hc0, this, Flt.neg, Flt.add, Bad]
  · simp [h0, smul, Flt.neg, Flt.add, Bad]

theorem poissonTermOff_bad {N N0 c : ℝ} (hc : 0 ≤ c) (h : N ≤ 0) (h0 : 0 < N0) :
    Bad (poissonTermOff N N0 c) := by
  have h1 : ¬ 0 < N / N0 := not_lt.2 (div_nonpos_of_nonpos_of_nonneg h h0.le)
  simp only [poissonTermOff, Flt.div, h0.ne', if_false, Flt.log, h1]
  by_cases hN : N / N0 = 0
  · simp only [hN, if_true, smul]
    by_cases hc0 : c = 0
    · simp [hc0, Flt.neg, Flt.add, Bad]
    · have : 0 < c := lt_of_le_of_ne hc (Ne.symm hc0)
      simp [hc0, this, Flt.neg, Flt.add, Bad]
  · simp [hN, smul, Flt.neg, Flt.add, Bad]

theorem poissonTerm_up {N c : ℝ} (hc : 0 ≤ c) : Up (poissonTerm N c) := by
  by_cases h : 0 < N
  · rw [poissonTerm_fin h]; trivial
  · exact bad_up (poissonTerm_bad hc (not_lt.1 h))

theorem poissonTermOff_up {N N0 c : ℝ} (hc : 0 ≤ c) (h0 : 0 < N0) : Up (poissonTermOff N N0 c) := by
  by_cases h : 0 < N
  · rw [poissonTermOff_fin h h0]; trivial
  · exact bad_up (poissonTermOff_bad hc (not_lt.1 h) h0)

variable {m : Mdl n P} {A : Arrays} {x : Fin n → ℝ} {θ : Fin P → ℝ} {d : DataV P}

theorem nll_bad {fl nc N} (h : m.totBinExp A x θ fl = .ok N) (hc : ∀ b < m.nbinsPoisson, 0 ≤ d.counts b)
    {b : Nat} (hb : b < m.nbinsPoisson) (hN : N b ≤ 0) :
    m.nll A x θ d false fl nc = .ok .pinf := by
  simp only [nll, h, bind_ok, Bool.not_false, if_true, pure_ok]
  have h1 := bad_sum (List.range m.nbinsPoisson) (fun b => poissonTerm (N b) (d.counts b))
    (fun b hb => poissonTerm_up (hc b (List.mem_range.1 hb))) (List.mem_range.2 hb)
    (poissonTerm_bad (hc b hb) hN)
  congr 1
  refine bad_nanToInf ?_
  split_ifs
  · exact bad_add_fin h1 _
  · exact bad_add_fin (bad_add_fin h1 _) _

theorem nll_off_bad {fl nc N N0} (h : m.totBinExp A x θ fl = .ok N)
    (hc : ∀ b < m.nbinsPoisson, 0 ≤ d.counts b)
    (h0 : m.refTot A = .ok N0) (hp0 : ∀ b < m.nbinsPoisson, 0 < N0 b)
    {b : Nat} (hb : b < m.nbinsPoisson) (hN : N b ≤ 0) :
    m.nll A x θ d true fl nc = .ok .pinf := by
  simp only [nll, h, h0, bind_ok, Bool.not_true, Bool.false_eq_true, if_false, pure_ok]
  have h1 := bad_sum (List.range m.nbinsPoisson)
    (fun b => poissonTermOff (N b) (N0 b) (d.counts b))
    (fun b hb => poissonTermOff_up (hc b (List.mem_range.1 hb)) (hp0 b (List.mem_range.1 hb)))
    (List.mem_range.2 hb) (poissonTermOff_bad (hc b hb) hN (hp0 b hb))
  congr 1
  refine bad_nanToInf ?_
  split_ifs
  · exact bad_add_fin h1 _
  · exact bad_add_fin (bad_add_fin h1 _) _

/-- The offset. -/
noncomputable def offsetVal (m : Mdl n P) (N0 : Nat → ℝ) (d : DataV P) : ℝ :=
  (∑ b ∈ Finset.range m.nbinsPoisson, (N0 b - d.counts b * Real.log (N0 b))) +
    m.quad (fun i => N0 (m.nbinsPoisson + i)) (fun i => N0 (m.nbinsPoisson + i))

theorem quad_offset (m : Mdl n P) (u w : Nat → ℝ)
    (hs : ∀ i < m.nbinsGaussian, ∀ j < m.nbinsGaussian, m.poiHessian i j = m.poiHessian j i) :
    m.quad (fun i => u i + w i) (fun i => u i - w i) = m.quad u u - m.quad w w := by
  have key : ∑ i ∈ Finset.range m.nbinsGaussian, ∑ j ∈ Finset.range m.nbinsGaussian,
      (w i * m.poiHessian i j * u j) = ∑ i ∈ Finset.range m.nbinsGaussian,
        ∑ j ∈ Finset.range m.nbinsGaussian, (u i * m.poiHessian i j * w j) := by
    rw [Finset.sum_comm]
    refine Finset.sum_congr rfl (fun i hi => Finset.sum_congr rfl (fun j hj => ?_))
    rw [hs j (Finset.mem_range.1 hj) i (Finset.mem_range.1 hi)]; ring
  have e : ∑ i ∈ Finset.range m.nbinsGaussian, ∑ j ∈ Finset.range m.nbinsGaussian,
      ((u i + w i) * m.poiHessian i j * (u j - w j)) =
      (∑ i ∈ Finset.range m.nbinsGaussian, ∑ j ∈ Finset.range m.nbinsGaussian,
        (u i * m.poiHessian i j * u j)) - (∑ i ∈ Finset.range m.nbinsGaussian,
        ∑ j ∈ Finset.range m.nbinsGaussian, (w i * m.poiHessian i j * w j)) := by
    have : ∀ i j, (u i + w i) * m.poiHessian i j * (u j - w j) =
      u i * m.poiHessian i j * u j - w i * m.poiHessian i j * w j
        + (w i * m.poiHessian i j * u j - u i * m.poiHessian i j * w j) := by intro i j; ring
    simp only [this, Finset.sum_add_distrib, Finset.sum_sub_distrib, key]; ring
  simp only [quad, e]; ring

theorem nllValOff_eq {N N0 : Nat → ℝ} (hp : ∀ b < m.nbinsPoisson, 0 < N b)
    (hp0 : ∀ b < m.nbinsPoisson, 0 < N0 b) (nc : Bool)
    (hs : ∀ i < m.nbinsGaussian, ∀ j < m.nbinsGaussian, m.poiHessian i j = m.poiHessian j i) :
    m.nllValOff N N0 θ d nc = m.nllVal N θ d nc - m.offsetVal N0 d := by
  have h1 : ∑ b ∈ Finset.range m.nbinsPoisson, (N b - N0 b - d.counts b * Real.log (N b / N0 b)) =
      (∑ b ∈ Finset.range m.nbinsPoisson, (N b - d.counts b * Real.log (N b))) -
      ∑ b ∈ Finset.range m.nbinsPoisson, (N0 b - d.counts b * Real.log (N0 b)) := by
    rw [← Finset.sum_sub_distrib]
    refine Finset.sum_congr rfl (fun b hb => ?_)
    have hb := Finset.mem_range.1 hb
    rw [Real.log_div (hp b hb).ne' (hp0 b hb).ne']; ring
  simp only [nllValOff, nllVal, offsetVal, h1]
  rw [quad_offset m (fun i => N (m.nbinsPoisson + i) - d.counts (m.nbinsPoisson + i))
    (fun i => N0 (m.nbinsPoisson + i)) hs]
  ring

/-- Gibbs' inequality for one bin. -/
theorem gibbs {c N : ℝ} (hc : 0 < c) (hN : 0 < N) :
    c - c * Real.log c ≤ N - c * Real.log N := by
  have h := Real.log_le_sub_one_of_pos (div_pos hN hc)
  rw [Real.log_div hN.ne' hc.ne'] at h
  have h2 : c * (Real.log N - Real.log c) ≤ c * (N / c - 1) := mul_le_mul_of_nonneg_left h hc.le
  have h3 : c * (N / c - 1) = N - c := by field_simp
  linarith

theorem _root_.Verif.NP.constraintWeight_nonneg (p : NP ℝ) : 0 ≤ p.constraintWeight := by
  unfold NP.constraintWeight
  split
  · positivity
  · exact le_refl _

theorem constraintTerm_nonneg (m : Mdl n P) (θ : Fin P → ℝ) (d : DataV P) : 0 ≤ m.constraintTerm θ d := by
  simp only [constraintTerm, constraintHessian]
  refine mul_nonneg (by norm_num) ?_
  simp only [dotProduct, Matrix.mulVec_diagonal]
  refine Finset.sum_nonneg (fun p _ => ?_)
  have h2 := mul_nonneg (NP.constraintWeight_nonneg (m.nps p)) (mul_self_nonneg (d.aux_obs p - θ p))
  linarith

theorem asimov_min {N0 N : Nat → ℝ} {θ0 : Fin P → ℝ}
    (hp0 : ∀ b < m.nbinsPoisson, 0 < N0 b) (hp : ∀ b < m.nbinsPoisson, 0 < N b)
    (hH : ∀ u : Nat → ℝ, 0 ≤ ∑ i ∈ Finset.range m.nbinsGaussian,
      ∑ j ∈ Finset.range m.nbinsGaussian, u i * m.poiHessian i j * u j) (nc : Bool) :
    m.nllVal N0 θ0 ⟨N0, θ0⟩ nc ≤ m.nllVal N θ ⟨N0, θ0⟩ nc := by
  simp only [nllVal]
  have h1 : m.quad (fun i => N0 (m.nbinsPoisson + i) - N0 (m.nbinsPoisson + i))
    (fun i => N0 (m.nbinsPoisson + i) - N0 (m.nbinsPoisson + i)) = 0 := by simp [quad]
  have h2 : 0 ≤ m.quad (fun i => N (m.nbinsPoisson + i) - N0 (m.nbinsPoisson + i))
      (fun i => N (m.nbinsPoisson + i) - N0 (m.nbinsPoisson + i)) :=
    mul_nonneg (by norm_num) (hH _)
  have h3 : m.constraintTerm θ0 ⟨N0, θ0⟩ = 0 := by
    simp [constraintTerm, show (fun p : Fin P => (0 : ℝ)) = 0 from rfl]
  have h4 := m.constraintTerm_nonneg θ ⟨N0, θ0⟩
  have h5 := Finset.sum_le_sum (fun b (hb : b ∈ Finset.range m.nbinsPoisson) =>
    gibbs (hp0 b (Finset.mem_range.1 hb)) (hp b (Finset.mem_range.1 hb)))
  rw [h1, h3]
  cases nc
  · simp only [Bool.false_eq_true, if_false]; linarith
  · simp only [if_true]; linarith

end Mdl
end Verif
