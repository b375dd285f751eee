import Verif.Lemmas.RemoveNps
import Verif.Lemmas.NPMin
/-! `NPPruner.remove_nps`: differences of the complete likelihood. -/
namespace Verif
namespace Mdl
variable {n P : Nat}

/-- The differences of the constraint terms do not see NPs that are held. -/
theorem Removal.constraint_diff {m : Mdl n P} {A : Arrays} {rx : String → String → Bool} {pv : Dict (Option ℝ)}
    {P' : Nat} {m' : Mdl n P'} {keep names ne0 vals0 u} (R : Removal m A rx pv m' keep names ne0 vals0 u)
    {d : DataV P} {d' : DataV P'} (hd : ∀ i, d'.aux_obs i = d.aux_obs (keep i)) {θ₁ θ₂ : Fin P → ℝ}
    (h1 : ∀ p, m.Selected rx pv p → θ₁ p = removedAt pv (m.nps p))
    (h2 : ∀ p, m.Selected rx pv p → θ₂ p = removedAt pv (m.nps p)) :
    m.constraintTerm θ₁ d - m.constraintTerm θ₂ d =
      m'.constraintTerm (fun i => θ₁ (keep i)) d' - m'.constraintTerm (fun i => θ₂ (keep i)) d' := by
  have key : ∀ θ : Fin P → ℝ, (∀ p, m.Selected rx pv p → θ p = removedAt pv (m.nps p)) →
      ∑ p, ((m.nps p).constraintWeight * ((θ p - d.aux_obs p) * (θ p - d.aux_obs p)) -
        (m.nps p).constraintWeight * (d.aux_obs p * d.aux_obs p)) =
      ∑ p, ((m.nps p).constraintWeight * ((u p - d.aux_obs p) * (u p - d.aux_obs p)) -
        (m.nps p).constraintWeight * (d.aux_obs p * d.aux_obs p)) +
      ∑ i, ((m.nps (keep i)).constraintWeight *
          ((θ (keep i) - d.aux_obs (keep i)) * (θ (keep i) - d.aux_obs (keep i))) -
        (m.nps (keep i)).constraintWeight * (d.aux_obs (keep i) * d.aux_obs (keep i))) := by
    intro θ hθ
    exact R.split (fun p t => (m.nps p).constraintWeight * ((t - d.aux_obs p) * (t - d.aux_obs p)) -
        (m.nps p).constraintWeight * (d.aux_obs p * d.aux_obs p)) (fun p => by ring) θ hθ
  have k1 := key θ₁ h1
  have k2 := key θ₂ h2
  simp only [Finset.sum_sub_distrib] at k1 k2
  simp only [constraintTerm_eq, R.nps, hd]
  linarith

/-- The value of the likelihood, without the constraint terms. -/
theorem nllVal_congr {P' : Nat} {m : Mdl n P} {m' : Mdl n P'} (h1 : m'.nbinsPoisson = m.nbinsPoisson)
    (h2 : m'.nbinsGaussian = m.nbinsGaussian) (h3 : m'.chanState = m.chanState) {N N' : Nat → ℝ}
    (heq : ∀ b < m.nbins, N b = N' b) {θ : Fin P → ℝ} {θ' : Fin P' → ℝ} {d : DataV P} {d' : DataV P'}
    (hd : d'.counts = d.counts) :
    m.nllVal N θ d false - m.constraintTerm θ d = m'.nllVal N' θ' d' false - m'.constraintTerm θ' d' := by
  have hb := m.nbins_eq
  simp only [nllVal, h1, hd, quad, h2, poiHessian, h3, Bool.false_eq_true, if_false]
  have e1 : ∑ b ∈ Finset.range m.nbinsPoisson, (N b - d.counts b * Real.log (N b)) =
      ∑ b ∈ Finset.range m.nbinsPoisson, (N' b - d.counts b * Real.log (N' b)) :=
    Finset.sum_congr rfl fun b hb' => by rw [heq b (by rw [hb]; have := Finset.mem_range.1 hb'; omega)]
  have e2 : ∀ i ∈ Finset.range m.nbinsGaussian, N (m.nbinsPoisson + i) = N' (m.nbinsPoisson + i) := by
    intro i hi
    exact heq _ (by rw [hb]; have := Finset.mem_range.1 hi; omega)
  have e3 : ∑ i ∈ Finset.range m.nbinsGaussian, ∑ j ∈ Finset.range m.nbinsGaussian,
      (N (m.nbinsPoisson + i) - d.counts (m.nbinsPoisson + i)) * m.chanState.poiHessian i j *
        (N (m.nbinsPoisson + j) - d.counts (m.nbinsPoisson + j)) =
      ∑ i ∈ Finset.range m.nbinsGaussian, ∑ j ∈ Finset.range m.nbinsGaussian,
      (N' (m.nbinsPoisson + i) - d.counts (m.nbinsPoisson + i)) * m.chanState.poiHessian i j *
        (N' (m.nbinsPoisson + j) - d.counts (m.nbinsPoisson + j)) :=
    Finset.sum_congr rfl fun i hi => Finset.sum_congr rfl fun j hj => by rw [e2 i hi, e2 j hj]
  rw [e1, e3]
  ring

/-- Differences of the complete likelihood (with constraint terms, with or without offset). -/
theorem Removal.ratio {m : Mdl n P} (hD : m.ctx.Distinct) (hne : ∀ p, (m.nps p).name ≠ "")
    {w : Nat} (hu : m.Uniform w) {A : Arrays} (hA : m.setInternal = .ok A)
    {rx : String → String → Bool} {pv : Dict (Option ℝ)}
    (hmode : (m.use_linear_nps = false ∧ m.cutoff = 0) ∨
      ∀ p, m.Selected rx pv p → removedAt pv (m.nps p) = 0)
    (hnn : ∀ ch ∈ m.channels, ∀ smp ∈ ch.samples, ∀ p, m.Selected rx pv p →
      smp.norm = .expr (m.nps p).name → smp.nominal_norm = (m.nps p).nominal_value)
    {P' : Nat} {m' : Mdl n P'} {keep names ne0 vals0 u} (R : Removal m A rx pv m' keep names ne0 vals0 u)
    {A' : Arrays} (hA' : m'.setInternal = .ok A')
    (hs : ∀ i < m.nbinsGaussian, ∀ j < m.nbinsGaussian, m.poiHessian i j = m.poiHessian j i)
    {d : DataV P} {d' : DataV P'} (hc : d'.counts = d.counts) (hd : ∀ i, d'.aux_obs i = d.aux_obs (keep i))
    {N0 N0' : Nat → ℝ} (h0 : m.refTot A = .ok N0) (h0' : m'.refTot A' = .ok N0')
    (hp0 : ∀ b < m.nbinsPoisson, 0 < N0 b) (hp0' : ∀ b < m.nbinsPoisson, 0 < N0' b)
    {x₁ x₂ : Fin n → ℝ} {θ₁ θ₂ : Fin P → ℝ}
    (h1 : ∀ p, m.Selected rx pv p → θ₁ p = removedAt pv (m.nps p))
    (h2 : ∀ p, m.Selected rx pv p → θ₂ p = removedAt pv (m.nps p)) {N1 N2 : Nat → ℝ}
    (hN1 : m'.totBinExp A' x₁ (fun i => θ₁ (keep i)) = .ok N1)
    (hN2 : m'.totBinExp A' x₂ (fun i => θ₂ (keep i)) = .ok N2)
    (hp1 : ∀ b < m.nbinsPoisson, 0 < N1 b) (hp2 : ∀ b < m.nbinsPoisson, 0 < N2 b) (offset : Bool) :
    ∃ L1 L2 L1' L2' : ℝ, m.nll A x₁ θ₁ d offset = .ok (.fin L1) ∧ m.nll A x₂ θ₂ d offset = .ok (.fin L2) ∧
      m'.nll A' x₁ (fun i => θ₁ (keep i)) d' offset = .ok (.fin L1') ∧
      m'.nll A' x₂ (fun i => θ₂ (keep i)) d' offset = .ok (.fin L2') ∧ L1 - L2 = L1' - L2' := by
  obtain ⟨e1, e2, e3⟩ := R.chanState
  have tot : ∀ {x θ N'}, (∀ p, m.Selected rx pv p → θ p = removedAt pv (m.nps p)) →
      m'.totBinExp A' x (fun i => θ (keep i)) = .ok N' →
      ∃ N, m.totBinExp A x θ = .ok N ∧ ∀ b < m.nbins, N b = N' b := by
    intro x θ N' hθ hN
    obtain ⟨ne', hne', rfl⟩ := nExp_of_totBinExp hN
    obtain ⟨ne, hn, heq⟩ := R.predicts hD hne hu hA hmode hnn hA' hθ hne'
    refine ⟨_, totBinExp_of_nExp hn, fun b hb => ?_⟩
    simp only [R.layout.maxSamples]
    exact Finset.sum_congr rfl fun s hs => heq s (Finset.mem_range.1 hs) b hb
  obtain ⟨M1, hM1, q1⟩ := tot h1 hN1
  obtain ⟨M2, hM2, q2⟩ := tot h2 hN2
  have lt : ∀ b < m.nbinsPoisson, b < m.nbins := fun b hb => by rw [m.nbins_eq]; omega
  have r1 : ∀ b < m.nbinsPoisson, 0 < M1 b := fun b hb => by rw [q1 b (lt b hb)]; exact hp1 b hb
  have r2 : ∀ b < m.nbinsPoisson, 0 < M2 b := fun b hb => by rw [q2 b (lt b hb)]; exact hp2 b hb
  have c1 := nllVal_congr e1 e2 e3 q1 (θ := θ₁) (θ' := fun i => θ₁ (keep i)) hc
  have c2 := nllVal_congr e1 e2 e3 q2 (θ := θ₂) (θ' := fun i => θ₂ (keep i)) hc
  have c3 := R.constraint_diff hd h1 h2
  have hs' : ∀ i < m'.nbinsGaussian, ∀ j < m'.nbinsGaussian, m'.poiHessian i j = m'.poiHessian j i := by
    rw [e2]; simp only [poiHessian, e3]; exact hs
  rw [← e1] at hp1 hp2 hp0'
  cases offset with
  | false =>
    exact ⟨_, _, _, _, nll_ok hM1 r1, nll_ok hM2 r2, nll_ok hN1 hp1, nll_ok hN2 hp2, by linarith⟩
  | true =>
    refine ⟨_, _, _, _, nll_off_ok hM1 r1 h0 hp0, nll_off_ok hM2 r2 h0 hp0, nll_off_ok hN1 hp1 h0' hp0',
      nll_off_ok hN2 hp2 h0' hp0', ?_⟩
    rw [nllValOff_eq r1 hp0 false hs, nllValOff_eq r2 hp0 false hs, nllValOff_eq hp1 hp0' false hs',
      nllValOff_eq hp2 hp0' false hs']
    linarith

end Mdl
end Verif
