import Verif.Lemmas.Compose
import Verif.Props.NPMin
import Verif.Props.NLL
/-! Helper lemmas: the fit environment of a statistical model. -/
namespace Verif
open Spec Props
namespace Mdl
variable {n P : Nat}

theorem fitEnv_profile_inv {m : Mdl n P} {A : Arrays} {d : DataV P} {k : Nat} {fl : Option ℝ}
    {p q : Pars ℝ} (h : (m.fitEnv A d k fl).profile p = .ok q) :
    p.pois.length = n ∧ p.nps.length = P ∧ ∃ θ, m.profileNps A (fun i => p.pois.getD i 0) d k
      (fun a => p.nps.getD a 0) = .ok θ ∧ q = ⟨p.pois, List.ofFn θ⟩ := by
  simp only [fitEnv] at h
  by_cases hc : p.pois.length = n ∧ p.nps.length = P
  · rw [if_pos hc] at h
    obtain ⟨θ, hθ, h⟩ := bind_eq_ok.1 h
    exact ⟨hc.1, hc.2, θ, hθ, (Except.ok.inj h).symm⟩
  · rw [if_neg hc] at h; cases h

theorem fitEnv_nll_iff {m : Mdl n P} {A : Arrays} {d : DataV P} {k : Nat} {fl : Option ℝ}
    {p : Pars ℝ} {v : ℝ} : (m.fitEnv A d k fl).nll p = .ok v ↔
    (p.pois.length = n ∧ p.nps.length = P) ∧
      m.nll A (fun i => p.pois.getD i 0) (fun a => p.nps.getD a 0) d true fl = .ok (.fin v) := by
  simp only [fitEnv]
  by_cases hc : p.pois.length = n ∧ p.nps.length = P
  · rw [if_pos hc]
    refine ⟨fun h => ⟨hc, ?_⟩, fun h => by rw [h.2]; rfl⟩
    obtain ⟨F, hF, h⟩ := bind_eq_ok.1 h
    rw [hF]
    cases F with
    | fin w => have := Except.ok.inj h; rw [this]
    | _ => simp at h
  · rw [if_neg hc]
    exact ⟨fun h => (by cases h), fun h => absurd h.1 hc⟩

theorem getD_ofFn {k : Nat} (f : Fin k → ℝ) : (fun i : Fin k => (List.ofFn f).getD i 0) = f := by
  funext i
  simp [List.getD_eq_getElem?_getD]

/-- A profiled NLL of the environment is an NLL of the model. -/
theorem profNll_inv {m : Mdl n P} {A : Arrays} {d : DataV P} {k : Nat} {fl : Option ℝ}
    {p : Pars ℝ} {v : ℝ} (h : profNll (m.fitEnv A d k fl) p v) :
    p.pois.length = n ∧ p.nps.length = P ∧ ∃ θ, m.profileNps A (fun i => p.pois.getD i 0) d k
      (fun a => p.nps.getD a 0) = .ok θ ∧ m.nll A (fun i => p.pois.getD i 0) θ d true fl = .ok (.fin v) := by
  obtain ⟨q, hq, hv⟩ := h
  obtain ⟨h1, h2, θ, hθ, rfl⟩ := fitEnv_profile_inv hq
  have := (fitEnv_nll_iff.1 hv).2
  simp only [getD_ofFn] at this
  exact ⟨h1, h2, θ, hθ, this⟩

theorem profNll_intro {m : Mdl n P} {A : Arrays} {d : DataV P} {k : Nat} {fl : Option ℝ}
    {x : Fin n → ℝ} {θ0 θ : Fin P → ℝ} {v : ℝ} (h : m.profileNps A x d k θ0 = .ok θ)
    (hv : m.nll A x θ d true fl = .ok (.fin v)) :
    profNll (m.fitEnv A d k fl) ⟨List.ofFn x, List.ofFn θ0⟩ v := by
  refine ⟨⟨List.ofFn x, List.ofFn θ⟩, ?_, ?_⟩
  · simp only [fitEnv, List.length_ofFn, and_self, if_true, getD_ofFn, h, bind_ok, pure_ok]
  · refine fitEnv_nll_iff.2 ⟨by simp, ?_⟩
    simp only [getD_ofFn]; exact hv

/-- At the generating point of an Asimov dataset the step of the NP profiling is 0. -/
theorem profile_asimov {m : Mdl n P} {A : Arrays} {x : Fin n → ℝ} {θ0 : Fin P → ℝ} {d : DataV P}
    (hd : m.generateAsimov A x θ0 = .ok d) {θ : Fin P → ℝ} (h : m.profile A x θ0 d = .ok θ) : θ = θ0 := by
  simp only [generateAsimov] at hd
  obtain ⟨N0, h0, hd⟩ := bind_eq_ok.1 hd
  have hd := Except.ok.inj hd
  subst hd
  obtain ⟨ne, hne, rfl⟩ := tot_ne h0
  simp only [profile] at h
  obtain ⟨s, hs, h⟩ := bind_eq_ok.1 h
  obtain ⟨ne', hne', _, _, _, hq⟩ := pq_inv hs
  have : ne = ne' := Except.ok.inj (hne.symm.trans hne')
  subst this
  have hq0 : s.q = 0 := by
    rw [hq]
    funext a
    simp [pqPoisson, pqGaussian, constraintHessian, Matrix.mulVec_diagonal]
  by_cases h1 : |s.p.det| < (1 / 1000) ^ P
  · rw [if_pos h1] at h
    exact (Except.ok.inj h).symm
  · rw [if_neg h1] at h
    by_cases h2 : (symUpper s.p).det = 0
    · rw [if_pos h2] at h; cases h
    · rw [if_neg h2] at h
      rw [← Except.ok.inj h]
      funext a
      simp [hq0]

theorem profileNps_asimov {m : Mdl n P} {A : Arrays} {x : Fin n → ℝ} {θ0 : Fin P → ℝ} {d : DataV P}
    (hd : m.generateAsimov A x θ0 = .ok d) (k : Nat) {θ : Fin P → ℝ}
    (h : m.profileNps A x d k θ0 = .ok θ) : θ = θ0 := by
  induction k with
  | zero => exact (Except.ok.inj h).symm
  | succ k ih =>
    simp only [profileNps] at h
    obtain ⟨θ', h1, h⟩ := bind_eq_ok.1 h
    rw [profile_asimov hd h1] at h
    exact ih h

/-- C17 with a floor that does not change the yields of the generating point. -/
theorem asimov_floor {m : Mdl n P} {A : Arrays} (hH : m.HPsd) (hs : m.HSymm)
    {R : Nat → ℝ} (hR : m.refTot A = .ok R) (hR0 : ∀ b < m.nbinsPoisson, 0 < R b)
    {x₀ : Fin n → ℝ} {θ₀ : Fin P → ℝ} {d : DataV P} (hd : m.generateAsimov A x₀ θ₀ = .ok d)
    (hp : ∀ b < m.nbinsPoisson, 0 < d.counts b) (fl : Option ℝ)
    (hfl : ∀ f, fl = some f → ∀ b < m.nbinsPoisson, f ≤ d.counts b) :
    ∃ v₀, m.nll A x₀ θ₀ d true none = .ok (.fin v₀) ∧ m.nll A x₀ θ₀ d true fl = .ok (.fin v₀) ∧
      ∀ x θ v, m.nll A x θ d true fl = .ok (.fin v) → v₀ ≤ v := by
  simp only [generateAsimov] at hd
  obtain ⟨N0, h0, hd⟩ := bind_eq_ok.1 hd
  have hd := Except.ok.inj hd
  subst hd
  have h0' : m.totBinExp A x₀ θ₀ fl = .ok N0 := by
    obtain ⟨ne, hne, hN⟩ := tot_ne h0
    cases fl with
    | none => exact h0
    | some f =>
      simp only [totBinExp, hne, bind_ok, pure_ok]
      congr 1
      funext b
      rw [hN]
      dsimp only
      by_cases hb : b < m.nbinsPoisson
      · rw [if_pos hb]
        have := hfl f rfl b hb
        rw [hN] at this
        exact max_eq_left this
      · rw [if_neg hb]
  refine ⟨_, nll_off_ok h0 hp hR hR0, nll_off_ok h0' hp hR hR0, fun x θ v hF => ?_⟩
  have hF' := hF
  simp only [nll] at hF'
  obtain ⟨N, hN, _⟩ := bind_eq_ok.1 hF'
  by_cases hpos : ∀ b < m.nbinsPoisson, 0 < N b
  · rw [nll_off_ok hN hpos hR hR0] at hF
    have e : _ = v := Flt.fin.inj (Except.ok.inj hF)
    rw [← e, nllValOff_eq hp hR0 _ hs, nllValOff_eq hpos hR0 _ hs]
    have := asimov_min (θ := θ) (θ0 := θ₀) hp hpos hH false
    linarith
  · push Not at hpos
    obtain ⟨b, hb, hle⟩ := hpos
    rw [nll_off_bad hN (fun b hb => (hp b hb).le) hR hR0 hb hle] at hF
    cases Except.ok.inj hF

/-- Without Poisson bins the floor has no effect. -/
theorem nll_floor_gauss {m : Mdl n P} (A : Arrays) (hG : m.nbinsPoisson = 0) (x : Fin n → ℝ)
    (θ : Fin P → ℝ) (d : DataV P) (fl : Option ℝ) : m.nll A x θ d true fl = m.nll A x θ d true none := by
  have : m.totBinExp A x θ fl = m.totBinExp A x θ none := by
    cases fl with
    | none => rfl
    | some f => simp [totBinExp, hG]
  simp only [nll, this]

/-- Where the NLL has a value at some NPs, one profiling step from 0 finds its minimum over the NPs. -/
theorem gauss_min {m : Mdl n P} {A : Arrays} {d : DataV P}
    (ha : m.use_asym_impacts = false) (hlin : m.use_linear_nps = true) (hc : m.cutoff = 0)
    (hl : m.use_lognormal_terms = false) (hS : m.HSymm) (hH : m.HPsd) (hG : m.nbinsPoisson = 0)
    (hw : ∀ p, ∃ c, (m.nps p).scaledConstraint = .ok c ∧ c ≠ 0 ∧ |c| ≤ 1)
    {N0 : Nat → ℝ} (h0 : m.refTot A = .ok N0) {x : Fin n → ℝ} {θ : Fin P → ℝ} {v : ℝ}
    (h : m.nll A x θ d = .ok (.fin v)) :
    ∃ θ1 v1, m.profileNps A x d 1 0 = .ok θ1 ∧ m.nll A x θ1 d = .ok (.fin v1) ∧ v1 ≤ v ∧
      ∀ θ' v', m.nll A x θ' d = .ok (.fin v') → v1 ≤ v' := by
  have h' := h
  simp only [nll] at h'
  obtain ⟨N, hN, _⟩ := bind_eq_ok.1 h'
  obtain ⟨ne, hne, _⟩ := tot_ne hN
  obtain ⟨vals, hv, hcomp⟩ := nExp_inv hne
  obtain ⟨ne0, hne0, _⟩ := nExp_ok A (0 : Fin P → ℝ) hv hcomp
  obtain ⟨s, hs⟩ := pq_ok d hne0 (Or.inr rfl) (fun i hi => by omega)
  have hdet := c18_well_conditioned m A x 0 d hl hS hH (fun b hb => by omega) hw s hs
  obtain ⟨θ1, v1, e1, e2, e3⟩ := c19_gaussian_exact_offset m A x d ha hlin hc hl hS hH hG s hs hdet N0 h0
  simp only [profileNll, e1, bind_ok] at e2
  have hall : ∀ θ' v', m.nll A x θ' d = .ok (.fin v') → v1 ≤ v' := by
    intro θ' v' hv'
    by_cases ht : θ' = θ1
    · subst ht
      rw [e2] at hv'
      exact (Flt.fin.inj (Except.ok.inj hv')).le
    · obtain ⟨w, hw1, hw2⟩ := e3 θ' ht
      rw [hw1] at hv'
      have := Flt.fin.inj (Except.ok.inj hv')
      rw [← this]; exact hw2.le
  refine ⟨θ1, v1, ?_, e2, hall θ v h, hall⟩
  simp [profileNps, e1]

end Mdl
end Verif
