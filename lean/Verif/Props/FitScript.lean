import Verif.Lemmas.FitScript
import Verif.Props.LimitsAll
import Verif.Props.CmdLine
/-!
# C79: the fit script (`fit_model.py`), from the files to the report
-/
namespace Verif.Props
open Verif.Spec
variable {n P : Nat}

theorem allowed_iff (m : Mdl n P) (pois : List (PoiRange ℝ)) (hm : pois.map (·.par) = List.ofFn m.pois)
    (hn : (List.ofFn m.pois).Nodup) (x : Fin n → ℝ) : PoisAllowed m pois [] [] x ↔ WithinRanges m pois x := by
  have key : ∀ r ∈ pois, effBound pois [] [] r.par = some r := by
    intro r hr
    have hnd : (pois.map (·.par)).Nodup := by rw [hm]; exact hn
    simp only [effBound, lastFor, lastBound, List.filter_nil, List.getLast?_nil, Option.map_none]
    have : pois.filter (fun b => decide (b.par = r.par)) = [r] := by
      clear hm hn
      induction pois with
      | nil => cases hr
      | cons a l ih =>
        rw [List.map_cons, List.nodup_cons] at hnd
        rcases List.mem_cons.1 hr with rfl | hr
        · rw [List.filter_cons_of_pos (by simp)]
          congr 1
          rw [List.filter_eq_nil_iff]
          intro b hb hc
          exact hnd.1 (List.mem_map.2 ⟨b, hb, by simpa using hc⟩)
        · rw [List.filter_cons_of_neg]
          · exact ih hr hnd.2
          · intro hc
            exact hnd.1 (List.mem_map.2 ⟨r, hr, (by simpa using hc : a.par = r.par).symm⟩)
    rw [this]; rfl
  constructor
  · intro h r hr i hri
    exact h i r (by rw [← hri]; exact key r hr)
  · intro h i b hb
    have hb' := hb
    simp only [effBound, lastFor, lastBound, List.filter_nil, List.getLast?_nil, Option.map_none] at hb'
    have := List.mem_filter.1 (List.mem_of_getLast? hb')
    exact h b this.1 i (by simpa using this.2)

/-- What a fit that did not fail reports: the point and the objective there. -/
theorem fitModel_point (m : Mdl n P) (A : Mdl.Arrays) (d : Mdl.DataV P) (c : CalcSetup) (hc : FitsOf m c)
    (hn : (List.ofFn m.pois).Nodup) (method : String) (hypo : Option (Dict ℝ)) (rep : Dict RepVal) (t : Option Mdl.HypoTest)
    (h : m.fitModel A d c method hypo = .ok (rep, t))
    (hopt : GoodFit c.opt (m.fitEnv A d 1 (some (1 / 10 ^ 7))) c.m c.pois c.ref) :
    ∃ v x θ, m.fitReport A d v ⟨List.ofFn x, List.ofFn θ⟩ = .ok rep ∧ WithinRanges m c.pois x ∧
      m.profileNps A x d 1 0 = .ok θ ∧ m.nll A x θ d true (some (1 / 10 ^ 7)) = .ok (.fin v) ∧
      IsLeast (profNlls (m.fitEnv A d 1 (some (1 / 10 ^ 7))) m.parModel c.pois [] [] (List.replicate P 0)) v := by
  unfold Mdl.fitModel at h
  obtain ⟨⟨v, q, s⟩, h1, h⟩ := bind_eq_ok.1 h
  obtain ⟨rep', h2, h⟩ := bind_eq_ok.1 h
  obtain ⟨t', h3, h⟩ := bind_eq_ok.1 h
  have h := Except.ok.inj (ε := PyErr) h
  simp only [Prod.mk.injEq] at h
  obtain ⟨rfl, rfl⟩ := h
  obtain ⟨w, hw⟩ := hc.start
  have hs : Shaped c.m c.ref := by
    rw [hc.model, hw]; exact ⟨by simp [Mdl.parModel], by simp [Mdl.parModel]⟩
  obtain ⟨p, p1, p2, p3, p4, p5, p6⟩ := FitS.bestFit_spec (by rw [hc.model]; exact hc.ranges) (by rw [hc.model]; exact hn)
    hs hc.ordered hopt h1
  rw [hc.model] at p1 p3 p6
  rw [hw] at p2 p6
  dsimp only at p2 p6
  have p1' : p.pois.length = n := by simpa [Mdl.parModel] using p1
  obtain ⟨_, _, θ, hθ, rfl⟩ := Mdl.fitEnv_profile_inv p4
  have hnll := (Mdl.fitEnv_nll_iff.1 p5).2
  simp only [Mdl.getD_ofFn] at hnll
  have e0 : (fun a : Fin P => p.nps.getD a 0) = 0 := by
    funext a
    rw [p2]
    simp [List.getD_eq_getElem?_getD]
  rw [e0] at hθ
  have epois : p.pois = List.ofFn fun i : Fin n => p.pois.getD i 0 := by
    apply List.ext_getElem
    · simp [p1']
    · intro i hi1 hi2
      simp [List.getD_eq_getElem?_getD, List.getElem?_eq_getElem hi1]
  refine ⟨v, fun i => p.pois.getD i 0, θ, by rw [← epois]; exact h2, ?_, hθ, hnll, p6⟩
  rw [← allowed_iff m c.pois hc.ranges hn]
  exact (inBox_iff m c.pois _ _ hn p p1').1 p3

/-- **C79** The report of a fit that does not fail gives a point in the ranges of the POIs, with the NPs profiled at these
POIs, and the NLL of that point; no other values of the POIs in the ranges, with their NPs profiled, have a smaller NLL. -/
theorem c79_best_fit (m : Mdl n P) (A : Mdl.Arrays) (d : Mdl.DataV P) (c : CalcSetup) (hc : FitsOf m c)
    (hp : PlainNames m) (method : String) (hypo : Option (Dict ℝ)) (rep : Dict RepVal) (t : Option Mdl.HypoTest)
    (h : m.fitModel A d c method hypo = .ok (rep, t))
    (hopt : GoodFit c.opt (m.fitEnv A d 1 (some (1 / 10 ^ 7))) c.m c.pois c.ref) :
    ∃ v x θ, Reports m rep v x θ ∧ WithinRanges m c.pois x ∧ m.profileNps A x d 1 0 = .ok θ ∧
      m.nll A x θ d true (some (1 / 10 ^ 7)) = .ok (.fin v) ∧
      ∀ x' θ' v', WithinRanges m c.pois x' → m.profileNps A x' d 1 0 = .ok θ' →
        m.nll A x' θ' d true (some (1 / 10 ^ 7)) = .ok (.fin v') → v ≤ v' := by
  obtain ⟨v, x, θ, h1, h2, h3, h4, h5⟩ := fitModel_point m A d c hc (List.nodup_append.1 hp.distinct).1 method hypo rep t h hopt
  have hn : (List.ofFn m.pois).Nodup := (List.nodup_append.1 hp.distinct).1
  refine ⟨v, x, θ, (FitS.report_spec m A d v x θ hp rep h1).1, h2, h3, h4, ?_⟩
  intro x' θ' v' hx' hθ' hv'
  refine h5.2 ⟨⟨List.ofFn x', List.replicate P 0⟩, by simp [Mdl.parModel], rfl, ?_, ?_⟩
  · rw [inBox_iff m c.pois _ _ hn _ (by simp), allowed_iff m c.pois hc.ranges hn]
    simpa only [Mdl.getD_ofFn] using hx'
  · have := Mdl.profNll_intro hθ' hv'
    rwa [Lim.replicate_ofFn]

/-- **C79** For a model with Gaussian channels only, symmetric linear impacts and constraints at most as wide as the
variations, the NLL reported is the smallest one over all the NPs and all the POIs in their ranges. -/
theorem c79_gaussian (m : Mdl n P) (A : Mdl.Arrays) (d : Mdl.DataV P) (c : CalcSetup) (hc : FitsOf m c)
    (hp : PlainNames m) (method : String) (hypo : Option (Dict ℝ)) (rep : Dict RepVal) (t : Option Mdl.HypoTest)
    (h : m.fitModel A d c method hypo = .ok (rep, t))
    (hopt : GoodFit c.opt (m.fitEnv A d 1 (some (1 / 10 ^ 7))) c.m c.pois c.ref)
    (ha : m.use_asym_impacts = false) (hlin : m.use_linear_nps = true) (hcut : m.cutoff = 0)
    (hl : m.use_lognormal_terms = false) (hS : m.HSymm) (hH : m.HPsd) (hG : m.nbinsPoisson = 0)
    (hw : ∀ p, ∃ c, (m.nps p).scaledConstraint = .ok c ∧ c ≠ 0 ∧ |c| ≤ 1)
    (N0 : Nat → ℝ) (h0 : m.refTot A = .ok N0) :
    ∃ v x θ, Reports m rep v x θ ∧ WithinRanges m c.pois x ∧ m.nll A x θ d = .ok (.fin v) ∧
      IsLeast (nllsWhere m A d (WithinRanges m c.pois)) v := by
  obtain ⟨v, x, θ, h1, h2, h3, h4, h5⟩ := c79_best_fit m A d c hc hp method hypo rep t h hopt
  rw [Mdl.nll_floor_gauss A hG] at h4
  refine ⟨v, x, θ, h1, h2, h4, ⟨x, θ, h2, h4⟩, ?_⟩
  rintro v' ⟨x', θ', hx', hv'⟩
  obtain ⟨θ1, v1, g1, g2, g3, _⟩ := Mdl.gauss_min ha hlin hcut hl hS hH hG hw h0 hv'
  exact (h5 x' θ1 v1 hx' g1 (by rw [Mdl.nll_floor_gauss A hG]; exact g2)).trans g3

/-- **C79** The fit of the Asimov dataset of the model itself at values `x₀` of the POIs in their ranges: the smallest NLL
reported is the one of the generating point, and the point reported predicts the data: the counts of the Poisson bins, the
measurements of the Gaussian ones up to directions that the covariance does not constrain, and the nominal values of the
constrained NPs. -/
theorem c79_asimov (m : Mdl n P) (A : Mdl.Arrays) (d : Mdl.DataV P) (c : CalcSetup) (hc : FitsOf m c)
    (hp : PlainNames m) (method : String) (hypo : Option (Dict ℝ)) (rep : Dict RepVal) (t : Option Mdl.HypoTest)
    (h : m.fitModel A d c method hypo = .ok (rep, t))
    (hopt : GoodFit c.opt (m.fitEnv A d 1 (some (1 / 10 ^ 7))) c.m c.pois c.ref)
    (hH : m.HPsd) (hS : m.HSymm) (R : Nat → ℝ) (hR : m.refTot A = .ok R) (hR0 : ∀ b < m.nbinsPoisson, 0 < R b)
    (x₀ : Fin n → ℝ) (hx : WithinRanges m c.pois x₀) (hd : m.generateAsimov A x₀ 0 = .ok d)
    (hpos : ∀ b < m.nbinsPoisson, 1 / 10 ^ 7 < d.counts b) (hprof : ∃ θ, m.profileNps A x₀ d 1 0 = .ok θ) :
    ∃ v x θ, Reports m rep v x θ ∧ m.nll A x₀ 0 d = .ok (.fin v) ∧ WithinRanges m c.pois x ∧
      ∃ N, m.totBinExp A x θ = .ok N ∧ (∀ b < m.nbinsPoisson, N b = d.counts b) ∧
        (∑ i ∈ Finset.range m.nbinsGaussian, ∑ j ∈ Finset.range m.nbinsGaussian,
          (N (m.nbinsPoisson + i) - d.counts (m.nbinsPoisson + i)) * m.poiHessian i j *
          (N (m.nbinsPoisson + j) - d.counts (m.nbinsPoisson + j))) = 0 ∧
        ∀ p, (m.nps p).constraintWeight ≠ 0 → θ p = 0 := by
  obtain ⟨v, x, θ, h1, h2, h3, h4, h5⟩ := c79_best_fit m A d c hc hp method hypo rep t h hopt
  have hpos0 : ∀ b < m.nbinsPoisson, 0 < d.counts b := fun b hb => lt_trans (by norm_num) (hpos b hb)
  obtain ⟨v₀, a1, a2, a3⟩ := Mdl.asimov_floor hH hS hR hR0 hd hpos0 (some (1 / 10 ^ 7)) (by
    intro f hf b hb
    rw [← Option.some.inj hf]
    exact (hpos b hb).le)
  obtain ⟨θ₀, hθ₀⟩ := hprof
  have e0 := Mdl.profileNps_asimov hd 1 hθ₀
  subst e0
  have hv : v = v₀ := le_antisymm (h5 x₀ _ v₀ hx hθ₀ a2) (a3 x θ v h4)
  subst hv
  exact ⟨v, x, θ, h1, a1, h2, FitS.asimov_eq hH hS hR hR0 hd hpos0 _ hpos a1 h4⟩

/-- **C79** Uncertainties.  They are those of the POIs with the NPs held at the values reported: without a covariance matrix
there are none; otherwise, where the matrix `H` of second derivatives with respect to the POIs is positive definite, the
uncertainty of a POI is the shift `σ` that raises the quadratic approximation of the NLL by 1/2 when the other POIs follow,
and the correlation matrix has `σ i * σ j * ρ i j` for the covariance of two POIs. -/
theorem c79_uncertainty (m : Mdl n P) (A : Mdl.Arrays) (d : Mdl.DataV P) (c : CalcSetup) (hc : FitsOf m c)
    (hp : PlainNames m) (method : String) (hypo : Option (Dict ℝ)) (rep : Dict RepVal) (t : Option Mdl.HypoTest)
    (h : m.fitModel A d c method hypo = .ok (rep, t))
    (hopt : GoodFit c.opt (m.fitEnv A d 1 (some (1 / 10 ^ 7))) c.m c.pois c.ref)
    (hD : m.ctx.Distinct) (hE : m.NoEmptyNorm) :
    ∃ v x θ, Reports m rep v x θ ∧
      (m.covarianceMatrix A x θ d = none → (∀ i, ReportedError rep (m.pois i) none) ∧
        rep.get? "correlation_matrix" = some (.matrix none)) ∧
      ∀ H N, m.hessian A x θ d = some H → m.totBinExp A x θ = .ok N → PosDefinite H →
        ∃ (C : Matrix (Fin n) (Fin n) ℝ) (σ : Fin n → ℝ) (ρ : Fin n → Fin n → ℝ),
          (∀ i k, ∑ j, H i j * C j k = if i = k then 1 else 0) ∧
          (∀ i, ReportedError rep (m.pois i) (some (.fin (σ i)))) ∧
          rep.get? "correlation_matrix" = some (.matrix (some (List.ofFn fun i => List.ofFn fun j => .fin (ρ i j)))) ∧
          (∀ i, 0 < σ i ∧ ∀ δ : Fin n → ℝ, |δ i| = σ i → 1 / 2 ≤ quadForm H δ / 2) ∧
          (∀ i, ∃ δ : Fin n → ℝ, δ i = σ i ∧ quadForm H δ / 2 = 1 / 2) ∧
          (∀ i, ρ i i = 1) ∧ (∀ i j, |ρ i j| ≤ 1) ∧ ∀ i j, C i j = ρ i j * σ i * σ j := by
  obtain ⟨v, x, θ, h1, h2, h3, h4, h5⟩ := fitModel_point m A d c hc (List.nodup_append.1 hp.distinct).1 method hypo rep t h hopt
  have hn : (List.ofFn m.pois).Nodup := (List.nodup_append.1 hp.distinct).1
  have hinj : Function.Injective m.pois := List.nodup_ofFn.1 hn
  obtain ⟨r1, r2, r3⟩ := FitS.report_spec m A d v x θ hp rep h1
  refine ⟨v, x, θ, r1, ?_, ?_⟩
  · intro hnone
    rw [hnone] at r2 r3
    exact ⟨r2, r3⟩
  · intro H N hH hN hP
    obtain ⟨C, hC, hCp, hCs⟩ := c62_covariance_posdef m A hD hE x θ d N hN H hH hP
    have hdiag : ∀ i, 0 < C i i := by
      intro i
      have := hCp (Pi.single i 1) (by simp)
      simpa [quadForm, Pi.single_apply, Finset.sum_ite_eq] using this
    have hpsd : ∀ δ, 0 ≤ quadForm C δ := by
      intro δ
      by_cases h0 : δ = 0
      · subst h0; simp [quadForm]
      · exact (hCp δ h0).le
    obtain ⟨E, e1, _, e3⟩ := c62_errors m A hD hE hinj x θ d N hN H hH hP
    obtain ⟨R', E', ρ, σ, g1, g2, g3, g4, g5, g6, g7, g8, _⟩ :=
      c62_correlation m A hinj x θ d none C (Or.inr ⟨rfl, hC⟩) hCs hpsd hdiag
    have hEE : E = E' := by rw [e1] at g2; exact Except.ok.inj (ε := PyErr) g2
    subst hEE
    rw [hC] at r2 r3
    have hEr : ∀ i, E.get? (m.pois i) = some (Mdl.errorsOf C i) := by
      intro i
      simp only [Mdl.parabolicErrors, Mdl.covOf, Option.none_or, hC, bind_ok, pure_ok] at e1
      have := (Except.ok.inj (ε := PyErr) e1).symm
      rw [this, Dict.setAll_eq_append _ _ (by simpa [Dict.keys, List.map_ofFn, Function.comp_def] using hn), List.nil_append]
      exact Dict.get?_ofFn _ _ hinj i
    have hσ : ∀ i, Mdl.errorsOf C i = .fin (σ i) := fun i => by
      have := (hEr i).symm.trans (g4 i)
      exact Option.some.inj this
    have hR : ∀ i j, R' i j = Flt.quot (Flt.quot (.fin (C i j)) (Mdl.errorsOf C i)) (Mdl.errorsOf C j) := by
      intro i j
      simp only [Mdl.correlationMatrix, Mdl.covOf, Option.none_or, hC, bind_ok, pure_ok] at g1
      rw [← Except.ok.inj (ε := PyErr) g1]
    refine ⟨C, σ, ρ, ?_, ?_, ?_, ?_, ?_, g5, g7, g8⟩
    · unfold Mdl.covarianceMatrix at hC
      rw [hH] at hC
      simp only at hC
      by_cases hdet : (Matrix.of H).det = 0
      · rw [if_pos hdet] at hC; cases hC
      · rw [if_neg hdet] at hC
        have hC := Option.some.inj hC
        intro i k
        have := congrFun (congrFun (Matrix.mul_nonsing_inv (Matrix.of H) (isUnit_iff_ne_zero.2 hdet)) i) k
        rw [hC, Matrix.mul_apply, Matrix.one_apply] at this
        simpa using this
    · intro i
      have := r2 i
      simpa only [FitS.errs, Option.map_some, hσ i] using this
    · rw [r3]
      simp only [FitS.corrs, Option.map_some, ← hR, g3]
    · intro i
      obtain ⟨s, s1, s2, s3, _⟩ := e3 i
      have : s = σ i := by
        have := s1.symm.trans (g4 i)
        exact Flt.fin.inj (Option.some.inj this)
      subst this
      exact ⟨s2, s3⟩
    · intro i
      obtain ⟨s, s1, s2, _, s4, _⟩ := e3 i
      have : s = σ i := by
        have := s1.symm.trans (g4 i)
        exact Flt.fin.inj (Option.some.inj this)
      subst this
      exact s4

/-- **C79** The uncertainties ignore the covariance of the Gaussian channels and the constraints of the NPs: the covariance
of the POIs at a point is the same whatever these are. -/
theorem c79_uncertainty_blind (m : Mdl n P) (cov : Channel → Nat → Nat → ℝ) (cons : Fin P → Option ℝ) (A : Mdl.Arrays)
    (x : Fin n → ℝ) (θ : Fin P → ℝ) (d : Mdl.DataV P) :
    (withErrors m cov cons).covarianceMatrix A x θ d = m.covarianceMatrix A x θ d := by
  obtain ⟨e1, e2⟩ := FitS.chan_same m cov cons
  have e3 := FitS.stack_same (α := ℝ) m cov cons
  have e4 := FitS.stack_same (α := Fin n → ℝ) m cov cons
  have e5 := FitS.stack_same (α := Fin n → Fin n → ℝ) m cov cons
  have e6 : ∀ s b, (withErrors m cov cons).cutKExp A θ s b = m.cutKExp A θ s b := by
    intro s b
    simp only [Mdl.cutKExp, Mdl.kExp, Mdl.delta, e1]
    rfl
  have e7 : (withErrors m cov cons).ctx = m.ctx := rfl
  simp only [Mdl.covarianceMatrix, Mdl.hessian, Mdl.hessianCore, Mdl.nExp, e1, e2, e3, e4, e5, e6, e7]
  rfl

/-- **C79** A fit in which scipy fails, with some POI free, writes no report. -/
theorem c79_failed_fit (m : Mdl n P) (A : Mdl.Arrays) (d : Mdl.DataV P) (c : CalcSetup) (method : String)
    (hypo : Option (Dict ℝ)) (p : Pars ℝ) (b : Dict (ParBound ℝ)) (fr : List (Nat × ParBound ℝ))
    (hs : setPois c.m c.pois c.ref none none false = .ok (p, b)) (hf : freeBounds b = .ok fr) (hne : fr ≠ [])
    (hfail : ∀ method, (c.opt (m.fitEnv A d 1 (some (1 / 10 ^ 7))) method p fr).success = false) :
    ∀ r, m.fitModel A d c method hypo ≠ .ok r := by
  rintro ⟨rep, t⟩ h
  unfold Mdl.fitModel at h
  obtain ⟨⟨v, q, s⟩, h1, _⟩ := bind_eq_ok.1 h
  obtain ⟨p', b', st, fr', g1, g2, g3, _⟩ := FitS.bestFit_inv h1
  rw [hs] at g1
  have e := Except.ok.inj (ε := PyErr) g1
  simp only [Prod.mk.injEq] at e
  obtain ⟨rfl, rfl⟩ := e
  rw [hf] at g2
  have := Except.ok.inj (ε := PyErr) g2
  subst this
  obtain ⟨fr'', k1, k2⟩ := minimize_inv _ _ _ _ _ _ g3
  rw [hf] at k1
  have := Except.ok.inj (ε := PyErr) k1
  subst this
  rcases k2 with ⟨hnil, _⟩ | ⟨_, es, _, _, _, hfl⟩
  · exact hne hnil
  · have := (hfl (hfail _)).2
    cases this

/-- **C79** The report does not depend on the hypothesis tested. -/
theorem c79_hypothesis_no_effect (m : Mdl n P) (A : Mdl.Arrays) (d : Mdl.DataV P) (c : CalcSetup) (method : String)
    (hypo : Option (Dict ℝ)) (rep : Dict RepVal) (t : Option Mdl.HypoTest)
    (h : m.fitModel A d c method hypo = .ok (rep, t)) : m.fitModel A d c method none = .ok (rep, none) := by
  unfold Mdl.fitModel at h ⊢
  obtain ⟨⟨v, q, s⟩, h1, h⟩ := bind_eq_ok.1 h
  obtain ⟨rep', h2, h⟩ := bind_eq_ok.1 h
  obtain ⟨t', h3, h⟩ := bind_eq_ok.1 h
  have h := Except.ok.inj (ε := PyErr) h
  simp only [Prod.mk.injEq] at h
  obtain ⟨rfl, rfl⟩ := h
  rw [h1, bind_ok]
  dsimp only at h2 ⊢
  rw [h2, bind_ok]
  rfl

/-- **C79** Finding F99: the entries of the report for the POIs are not separated from the others.  A POI called `min_nll`
replaces the smallest NLL, one called `min_pars` the parameters, and the best-fit value and uncertainty of one called
`correlation_matrix` are lost. -/
theorem c79_name_clash (m : Mdl n P) (A : Mdl.Arrays) (d : Mdl.DataV P) (c : CalcSetup) (hc : FitsOf m c)
    (hn : (List.ofFn m.pois).Nodup) (method : String) (hypo : Option (Dict ℝ)) (rep : Dict RepVal)
    (t : Option Mdl.HypoTest) (h : m.fitModel A d c method hypo = .ok (rep, t))
    (hopt : GoodFit c.opt (m.fitEnv A d 1 (some (1 / 10 ^ 7))) c.m c.pois c.ref) (i : Fin n) :
    (m.pois i = "min_nll" ∨ m.pois i = "min_pars" → ∃ b u, rep.get? (m.pois i) = some (.poi b u)) ∧
    (m.pois i = "correlation_matrix" → ∃ R, rep.get? (m.pois i) = some (.matrix R)) := by
  obtain ⟨v, x, θ, h1, _⟩ := fitModel_point m A d c hc hn method hypo rep t h hopt
  rw [FitS.report_eq m A d v x θ hn] at h1
  have h1 := (Except.ok.inj (ε := PyErr) h1).symm
  have hinj : Function.Injective m.pois := List.nodup_ofFn.1 hn
  constructor
  · intro hi
    have hne : "correlation_matrix" ≠ m.pois i := by rcases hi with e | e <;> rw [e] <;> decide
    refine ⟨x i, FitS.errs (m.covarianceMatrix A x θ d) i, ?_⟩
    rw [h1, Dict.get?_set_ne _ _ hne, Dict.get?_setAll _ _ _ (by
      simpa [Dict.keys, List.map_ofFn, Function.comp_def] using hn), Dict.get?_ofFn _ _ hinj i]
    rfl
  · intro hi
    rw [h1, hi, Dict.get?_set_self]
    exact ⟨_, rfl⟩

/-! ### The dataset that is fitted -/

/-- **C79** With a data file the fit uses it, whatever `--asimov` says; without it and without `--asimov` the data of the
model file are used. -/
theorem c79_data_source (L : Cmd.Lib) (o : Markup.Obj) (A : Mdl.Arrays) (modelFile F : Dict Markup.V)
    (asimov : Option Cmd.Str) :
    (∀ s, DData.loadDict (Markup.dataModel o) F = .ok s →
      ∃ d, Markup.fitData L o A asimov modelFile (some F) = .ok d ∧ HasContents d s) ∧
    (∀ e, DData.loadDict (Markup.dataModel o) F = .error e → Markup.fitData L o A asimov modelFile (some F) = .error e) ∧
    Markup.fitData L o A none modelFile none = Markup.fitData L o A none modelFile (some modelFile) := by
  refine ⟨?_, ?_, rfl⟩
  · intro s hs
    refine ⟨Markup.toDataV _ s, by simp [Markup.fitData, hs], ?_, ?_⟩
    · intro i
      simp [Markup.toDataV, List.getD_eq_getElem?_getD]
    · intro p v hv
      simp [Markup.toDataV, List.getD_eq_getElem?_getD, hv]
  · intro e he
    simp [Markup.fitData, he]

/-- The text of the option consists of assignments of numbers to parameters, and the last one that selects a POI gives the
value in `x`, for all of the POIs. -/
structure AssignsPois (L : Cmd.Lib) (o : Markup.Obj) (as : List (Cmd.Str × Cmd.Str)) (x : Fin o.doc.pois.length → ℝ) : Prop where
  some : as ≠ []
  plain : ∀ a ∈ as, Cmd.Plain a.1 ∧ Cmd.Plain a.2
  selects : ∀ a ∈ as, ∃ k, Selects L (Markup.parNames o) {} a k
  numbers : ∀ a ∈ as, ∃ v, L.float a.2 = .some v
  last : ∀ i, ∃ pre a post, as = pre ++ a :: post ∧ Selects L (Markup.parNames o) {} a (o.mdl.pois i) ∧
    (∀ b ∈ post, ¬ Selects L (Markup.parNames o) {} b (o.mdl.pois i)) ∧ L.float a.2 = .some (x i)

theorem text_vals {L : Cmd.Lib} {o : Markup.Obj} {as : List (Cmd.Str × Cmd.Str)} {x : Fin o.doc.pois.length → ℝ}
    (h : AssignsPois L o as x) : ∃ E, Markup.parseVals L o (Cmd.render as) = .ok E ∧ E.keys.Nodup ∧
      (∀ k ∈ E.keys, ∃ a ∈ as, Selects L (Markup.parNames o) {} a k) ∧ ∀ i, E.get? (o.mdl.pois i) = some (x i) := by
  obtain ⟨h0, hp, hsel, hval, hx⟩ := h
  obtain ⟨D, hD, hk⟩ := c63_setvals L (Markup.parNames o) {} as h0 hp hsel hval (by simp) (by simp)
  have hD' := hD
  rw [Cmd.processSetvals, Cmd.fields_render as h0 hp] at hD'
  obtain ⟨E, hE, hg, hkeys⟩ := FitS.nums (FitS.setvals_num as [] D (by simp) hD')
  refine ⟨E, ?_, ?_, ?_, ?_⟩
  · unfold Markup.parseVals
    rw [hD]
    exact hE
  · rw [hkeys]
    exact CmdLine.setvals_nodup L _ {} as [] D List.nodup_nil hD'
  · intro k hk'
    rw [hkeys] at hk'
    rcases hk k with ⟨hno, _⟩ | ⟨pre', a', post', v, e', t1, _⟩
    · exact absurd hk' ((Dict.get?_eq_none_iff _ _).1 hno)
    · exact ⟨a', by rw [e']; simp, t1⟩
  · intro i
    refine hg _ _ ?_
    obtain ⟨pre, a, post, e, s1, s2, s3⟩ := hx i
    rcases hk (o.mdl.pois i) with ⟨_, hno⟩ | ⟨pre', a', post', v, e', t1, t2, t3, t4⟩
    · exact absurd s1 (hno a (by rw [e]; simp))
    · have hv : v = x i := by
        rw [e] at e'
        rcases List.append_eq_append_iff.1 e' with ⟨l, l1, l2⟩ | ⟨l, l1, l2⟩
        · cases l with
          | nil =>
            rw [List.nil_append] at l2
            have := (List.cons.inj l2).1
            subst this
            rw [s3] at t3
            exact (Option.some.inj t3).symm
          | cons y l =>
            exact absurd t1 (s2 a' (by rw [List.cons_append] at l2; rw [(List.cons.inj l2).2]; simp))
        · cases l with
          | nil =>
            rw [List.nil_append] at l2
            have := (List.cons.inj l2).1
            subst this
            rw [s3] at t3
            exact (Option.some.inj t3).symm
          | cons y l =>
            exact absurd s1 (t2 a (by rw [List.cons_append] at l2; rw [(List.cons.inj l2).2]; simp))
      rw [t4, hv]
      simp

/-- **C79** `--asimov` with assignments of numbers, the last one selecting each POI giving the value in `x`: the dataset is
the Asimov dataset of the model for these POIs and the NPs at their nominal values.  Finding F98: the assignments to NPs,
which are accepted, have no effect. -/
theorem c79_asimov_option (L : Cmd.Lib) (o : Markup.Obj) (A : Mdl.Arrays) (as : List (Cmd.Str × Cmd.Str))
    (x : Fin o.doc.pois.length → ℝ) (h : AssignsPois L o as x) (modelFile : Dict Markup.V) :
    Markup.fitData L o A (some (Cmd.render as)) modelFile none = o.mdl.generateAsimov A x 0 := by
  obtain ⟨E, hpv, _, _, hN⟩ := text_vals h
  have hN : Names o.mdl x (.dict E) := hN
  simp only [Markup.fitData, hpv, bind_ok]
  unfold Mdl.generateExpected
  rw [expectedPars_names o.mdl A x _ hN]
  rfl

/-- **C79** The test of a hypothesis that gives the values `xh` of all the POIs: the point printed has these values and the
NPs profiled there, and the test statistic is twice the difference between its NLL `vh` and the smallest NLL `v` of the
report (0 if this is negative, which can only happen outside the ranges of the POIs). -/
theorem c79_hypothesis (m : Mdl n P) (A : Mdl.Arrays) (d : Mdl.DataV P) (c : CalcSetup) (hc : FitsOf m c)
    (hp : PlainNames m) (method : String) (hypo : Dict ℝ) (hnd : hypo.keys.Nodup) (xh : Fin n → ℝ)
    (hk : ∀ k ∈ hypo.keys, ∃ i, k = m.pois i) (hv : ∀ i, hypo.get? (m.pois i) = some (xh i)) (rep : Dict RepVal)
    (t : Option Mdl.HypoTest) (h : m.fitModel A d c method (some hypo) = .ok (rep, t))
    (hopt : GoodFit c.opt (m.fitEnv A d 1 (some (1 / 10 ^ 7))) c.m c.pois c.ref)
    (htest : GoodTest c.opt (m.fitEnv A d 1 (some (1 / 10 ^ 7))) c.m c.pois c.ref hypo)
    (heval : ∀ env method p fr, (c.opt env method p fr).evals ≠ []) :
    ∃ r v x θ vh θh, t = some r ∧ Reports m rep v x θ ∧ m.profileNps A xh d 1 0 = .ok θh ∧
      m.nll A xh θh d true (some (1 / 10 ^ 7)) = .ok (.fin vh) ∧ r.pars = ⟨List.ofFn xh, List.ofFn θh⟩ ∧
      r.tmu = max 0 (2 * (vh - v)) ∧ (WithinRanges m c.pois xh → v ≤ vh) := by
  have hn : (List.ofFn m.pois).Nodup := (List.nodup_append.1 hp.distinct).1
  have h' := h
  unfold Mdl.fitModel at h
  obtain ⟨⟨v, q, s⟩, h1, h⟩ := bind_eq_ok.1 h
  obtain ⟨rep', h2, h⟩ := bind_eq_ok.1 h
  obtain ⟨t', h3, h⟩ := bind_eq_ok.1 h
  have h := Except.ok.inj (ε := PyErr) h
  simp only [Prod.mk.injEq] at h
  obtain ⟨rfl, rfl⟩ := h
  obtain ⟨w, hw⟩ := hc.start
  have hs : Shaped c.m c.ref := by
    rw [hc.model, hw]; exact ⟨by simp [Mdl.parModel], by simp [Mdl.parModel]⟩
  obtain ⟨v1, x, θ, g1, g2, g3, g4, g5⟩ := fitModel_point m A d c hc hn method (some hypo) rep' t' h' hopt
  obtain ⟨p, _, _, _, _, _, p6⟩ := FitS.bestFit_spec (by rw [hc.model]; exact hc.ranges) (by rw [hc.model]; exact hn)
    hs hc.ordered hopt h1
  rw [hc.model, hw] at p6
  dsimp only at p6
  have hvv : v1 = v := g5.unique p6
  subst hvv
  -- the test
  unfold Mdl.testHypoOpt at h3
  obtain ⟨r, h4, h3⟩ := bind_eq_ok.1 h3
  have h3 := (Except.ok.inj (ε := PyErr) h3).symm
  subst h3
  unfold Mdl.testHypo at h4
  obtain ⟨⟨s1, out⟩, h5, h4⟩ := bind_eq_ok.1 h4
  obtain ⟨one, h6, h4⟩ := bind_eq_ok.1 h4
  have h4 := (Except.ok.inj (ε := PyErr) h4).symm
  subst h4
  obtain ⟨p0, b0, st, fr0, b1, b2, b3, b4, b5, b6, b7, b8⟩ := FitS.bestFit_inv h1
  have hb0 : b0 = argBounds c.pois none := setPois_bounds _ _ _ _ _ _ _ b1
  let s0 : OptiMin ℝ := { method := s.method, tmuDebug := 0 }
  have hal : Alike c.pois s0 s := by
    refine ⟨rfl, rfl, b7, rfl, b8, ?_⟩
    rw [b5, hb0]
    exact (argBounds_again c.pois none).symm
  have e1 := tmu_alike c.opt heval c.m c.pois (m.fitEnv A d 1 (some (1 / 10 ^ 7))) c.ref hypo s0 s hal
  rw [h5] at e1
  obtain ⟨sa, hta⟩ := map_snd_ok e1
  rw [tmu_eq_attempt _ _ _ _ _ _ s0 rfl rfl] at hta
  obtain ⟨pf, bf, ph, bh, sh, rh, sf, rf, k1, k2, k3, k4, k5, k6, k7, k8, k9, _⟩ := attempt_inv _ _ _ _ _ _ s0 sa out hta
  have k1 : setPois c.m c.pois c.ref none (some hypo) false = .ok (pf, bf) := k1
  -- the fit of the hypothesis
  have hfull : ∀ i, lastFor hypo (m.pois i) = some (xh i) := by
    intro i
    exact lastFor_nodup hypo hnd (m.pois i, xh i) ((Dict.get?_eq_some_iff hypo hnd _ _).1 (hv i))
  have hhyp : ∀ e ∈ hypo, e.1 ∈ List.ofFn m.pois := by
    intro e he
    obtain ⟨i, hi⟩ := hk e.1 (List.mem_map.2 ⟨e, he, rfl⟩)
    rw [hi]; exact List.mem_ofFn.2 ⟨i, rfl⟩
  have k1' := k1
  have k2' := k2
  rw [hc.model, hw] at k1' k2'
  obtain ⟨eph, hnf⟩ := hypo_fixed m hn xh c.pois hc.ranges none hypo hhyp (by simp) hfull (List.ofFn w) (by simp) pf bf ph bh
    k1' k2'
  unfold minimizeD at k3
  obtain ⟨run, hr, k3⟩ := bind_eq_ok.1 k3
  have hhyp3 : ∃ θh, m.profileNps A xh d 1 0 = .ok θh ∧ m.nll A xh θh d true (some (1 / 10 ^ 7)) = .ok (.fin out.hypoNll) ∧
      out.hypoPars = ⟨List.ofFn xh, List.ofFn θh⟩ := by
    obtain ⟨fr, hfr, hcase⟩ := minimize_inv _ c.m _ sh run rh k3
    have hnil := hnf fr hfr
    rcases hcase with ⟨_, _, u, q', hpq, ev, eq, _⟩ | ⟨hne, _⟩
    · obtain ⟨a1, a2⟩ := profileAt_inv _ _ _ _ hpq
      simp only [eph] at a1
      obtain ⟨_, _, θh, hθ, hq'⟩ := Mdl.fitEnv_profile_inv a1
      have e0 : (fun a : Fin P => (List.replicate P (0:ℝ)).getD a 0) = 0 := by
        funext a
        simp [List.getD_eq_getElem?_getD]
      simp only [Mdl.getD_ofFn, e0] at hθ
      have a3 := (Mdl.fitEnv_nll_iff.1 a2).2
      rw [hq'] at a3
      simp only [Mdl.getD_ofFn] at a3
      rw [k5] at ev
      have ev := Option.some.inj ev
      rw [k7] at eq
      have eq := Option.some.inj eq
      exact ⟨θh, hθ, by rw [ev]; exact a3, by rw [eq, hq']⟩
    · exact absurd hnil hne
  obtain ⟨θh, z1, z2, z3⟩ := hhyp3
  -- the free fit
  have hfree : out.freeNll = v1 := by
    unfold minimizeD at k4
    obtain ⟨run2, hr2, k4⟩ := bind_eq_ok.1 k4
    unfold optRun at hr2
    obtain ⟨fr2, hfr2, hr2⟩ := bind_eq_ok.1 hr2
    have hr2 := (Except.ok.inj (ε := PyErr) hr2).symm
    have hle' : ∀ n b lo hi, effBound c.pois [] [] n = some b → b.min = some lo → b.max = some hi → lo ≤ hi := by
      intro n b lo hi hb h1 h2
      simp only [effBound, lastFor, lastBound, List.filter_nil, List.getLast?_nil, Option.map_none] at hb
      have := List.mem_of_getLast? hb
      exact hc.ordered b (List.mem_filter.1 this).1 lo hi h1 h2
    obtain ⟨v', hv', hl⟩ := fit_least (m.fitEnv A d 1 (some (1 / 10 ^ 7))) c.m c.pois c.ref pf none hypo false bf s0.method run2
      sf rf (by rw [hc.model]; exact hc.ranges) (by rw [hc.model]; exact hn) hs (by rw [hc.model]; exact hhyp) (by simp)
      (by simpa using hle') k1 k4 (by
        intro fr' hf hne
        rw [show freeBounds bf = .ok fr2 from hfr2] at hf
        have := Except.ok.inj (ε := PyErr) hf
        subst this
        rw [hr2]
        exact htest pf bf fr2 _ k1 hfr2 hne)
    rw [k6] at hv'
    have hv' := Option.some.inj hv'
    rw [hc.model, hw] at hl
    simp only [Option.getD_none, Bool.false_eq_true, if_false] at hl
    rw [hv']
    exact hl.unique p6
  refine ⟨_, v1, x, θ, out.hypoNll, θh, rfl, (FitS.report_spec m A d v1 x θ hp rep' g1).1, z1, z2, z3, ?_, ?_⟩
  · dsimp only
    rw [k9, hfree]
    unfold tmuValue
    dsimp only
    by_cases hlt : 2 * (out.hypoNll - v1) < 0
    · rw [if_pos hlt, max_eq_left hlt.le]
    · rw [if_neg hlt, max_eq_right (not_lt.1 hlt)]
  · intro hx
    refine g5.2 ⟨⟨List.ofFn xh, List.replicate P 0⟩, by simp [Mdl.parModel], rfl, ?_, ?_⟩
    · rw [inBox_iff m c.pois _ _ hn _ (by simp), allowed_iff m c.pois hc.ranges hn]
      simpa only [Mdl.getD_ofFn] using hx
    · have := Mdl.profNll_intro z1 z2
      rwa [Lim.replicate_ofFn]

/-! ### The script -/

/-- **C79** Finding F95: with `--regularize` the script always fails (the method it calls does not exist). -/
theorem c79_regularize (T : Markup.Texts) (L : Cmd.Lib) (opt : Optim ℝ) (opts : Markup.FitOpts) (modelFile : Dict Markup.V)
    (dataFile : Option (Dict Markup.V)) (o : Markup.Obj) (ho : Markup.createModel T opts.linear_nps modelFile = .ok o)
    (h : opts.regularize.isSome) : Markup.fitScript T L opt opts modelFile dataFile = .error .attributeError := by
  simp [Markup.fitScript, Markup.fitInput, ho, h]

theorem fitsOf_setup (opt : Optim ℝ) (o : Markup.Obj)
    (hle : ∀ p ∈ o.doc.pois, ∀ lo hi, p.min_value = some lo → p.max_value = some hi → lo ≤ hi) :
    FitsOf o.mdl (Markup.fitSetup opt o) where
  model := rfl
  ranges := by
    apply List.ext_getElem
    · simp [Markup.fitSetup, Markup.poiRanges]
    · intro i h1 h2
      simp [Markup.fitSetup, Markup.poiRanges, Markup.Obj.mdl]
  ordered := by
    intro r hr lo hi h1 h2
    obtain ⟨p, hp, rfl⟩ := List.mem_map.1 hr
    exact hle p hp lo hi h1 h2
  start := ⟨_, rfl⟩

/-- **C79** From the files to the report.  If the script succeeds it has loaded a model (with `--linear-nps`, `--cutoff` and
`--setrange` applied) and a dataset, and the report gives a point in the ranges of the POIs, with the NPs profiled at these
POIs, and its NLL, the smallest one over the POIs in their ranges with their NPs profiled. -/
theorem c79_script (T : Markup.Texts) (L : Cmd.Lib) (opt : Optim ℝ) (opts : Markup.FitOpts) (modelFile : Dict Markup.V)
    (dataFile : Option (Dict Markup.V)) (rep : Dict RepVal) (t : Option Mdl.HypoTest)
    (h : Markup.fitScript T L opt opts modelFile dataFile = .ok (rep, t)) :
    ∃ o A d, Markup.fitInput T L opts modelFile = .ok o ∧ o.mdl.setInternal = .ok A ∧
      Markup.fitData L o A opts.asimov modelFile dataFile = .ok d ∧
      (PlainNames o.mdl → (∀ p ∈ o.doc.pois, ∀ lo hi, p.min_value = some lo → p.max_value = some hi → lo ≤ hi) →
        GoodFit opt (o.mdl.fitEnv A d 1 (some (1 / 10 ^ 7))) o.mdl.parModel (Markup.poiRanges o)
          ⟨List.ofFn o.mdl.poiInit, List.replicate o.doc.nps.length 0⟩ →
        ∃ v x θ, Reports o.mdl rep v x θ ∧ WithinRanges o.mdl (Markup.poiRanges o) x ∧
          o.mdl.profileNps A x d 1 0 = .ok θ ∧ o.mdl.nll A x θ d true (some (1 / 10 ^ 7)) = .ok (.fin v) ∧
          ∀ x' θ' v', WithinRanges o.mdl (Markup.poiRanges o) x' → o.mdl.profileNps A x' d 1 0 = .ok θ' →
            o.mdl.nll A x' θ' d true (some (1 / 10 ^ 7)) = .ok (.fin v') → v ≤ v') := by
  unfold Markup.fitScript at h
  obtain ⟨o, h1, h⟩ := bind_eq_ok.1 h
  obtain ⟨A, h2, h⟩ := bind_eq_ok.1 h
  obtain ⟨d, h3, h⟩ := bind_eq_ok.1 h
  obtain ⟨hy, h4, h⟩ := bind_eq_ok.1 h
  refine ⟨o, A, d, h1, h2, h3, ?_⟩
  intro hp hle hopt
  exact c79_best_fit o.mdl A d (Markup.fitSetup opt o) (fitsOf_setup opt o hle) hp opts.method hy rep t h hopt

/-- **C79** The ranges of the fit: those of the model file, and with `--setrange` each end is the one of the last assignment
that selects the POI and gives this end. -/
theorem c79_ranges (T : Markup.Texts) (L : Cmd.Lib) (opts : Markup.FitOpts) (modelFile : Dict Markup.V)
    (o : Markup.Obj) (ho : Markup.createModel T opts.linear_nps modelFile = .ok o) (hreg : opts.regularize = none) :
    (opts.setrange = none → ∃ o', Markup.fitInput T L opts modelFile = .ok o' ∧
      Adjusted o o' opts.cutoff ∧ Markup.poiRanges o' = Markup.poiRanges o) ∧
    ∀ as : List (Cmd.Str × RangeText), as ≠ [] → opts.setrange = some (Cmd.render (as.map fun a => (a.1, a.2.text))) →
      (o.doc.pois.map fun p => p.name.getD "").Nodup → (∀ a ∈ as, Cmd.Plain a.1 ∧ a.2.Plain) →
      (∀ a ∈ as, RangeOk L (o.doc.pois.map fun p => p.name.getD "") a) →
      ∃ o', Markup.fitInput T L opts modelFile = .ok o' ∧ Adjusted o o' opts.cutoff ∧
        Markup.poiRanges o' = (Markup.poiRanges o).map fun r =>
          ⟨r.par, lastEnd L RangeText.lo r.par as r.min, lastEnd L RangeText.hi r.par as r.max⟩ := by
  have hcut : (Markup.withCutoff o opts.cutoff).doc = o.doc := by cases opts.cutoff <;> rfl
  have hfl : (Markup.withCutoff o opts.cutoff).flags = { o.flags with cutoff := opts.cutoff.getD o.flags.cutoff } := by
    cases opts.cutoff <;> rfl
  constructor
  · intro hs
    refine ⟨Markup.withCutoff o opts.cutoff, ?_, ⟨by rw [hcut], by rw [hcut], hfl⟩, ?_⟩
    · simp [Markup.fitInput, ho, hreg, hs, Markup.withRanges]
    · simp [Markup.poiRanges, hcut]
  · intro as h0 hs hnd hp hok
    set base : Dict (ModelPOI ℝ) := o.doc.pois.map fun p => (p.name.getD "", p) with hbase
    have hkeys : base.keys = o.doc.pois.map fun p => p.name.getD "" := by
      simp [hbase, Dict.keys, Function.comp_def]
    obtain ⟨q, hq, hk, hg⟩ := c63_setranges L as h0 base hp (by rw [hkeys]; exact hok)
    have hqv : q.values = o.doc.pois.map fun p =>
        { p with min_value := lastEnd L RangeText.lo (p.name.getD "") as p.min_value
                 max_value := lastEnd L RangeText.hi (p.name.getD "") as p.max_value } := by
      have hqd : q.keys.Nodup := by rw [hk, hkeys]; exact hnd
      have hlen : q.length = o.doc.pois.length := by
        have := congrArg List.length (hk.trans hkeys)
        simpa [Dict.keys] using this
      apply List.ext_getElem
      · simp [Dict.values, hlen]
      · intro i hi1 hi2
        have hi : i < q.length := by simpa [Dict.values] using hi1
        have hi' : i < o.doc.pois.length := by rw [← hlen]; exact hi
        have hkey : q[i].1 = (o.doc.pois[i]).name.getD "" := by
          have e := List.getElem_of_eq (hk.trans hkeys) (i := i) (by simpa [Dict.keys] using hi)
          simpa [Dict.keys] using e
        have h1 : q.get? q[i].1 = some q[i].2 := (Dict.get?_eq_some_iff q hqd _ _).2 (List.getElem_mem hi)
        have h2 : base.get? ((o.doc.pois[i]).name.getD "") = some o.doc.pois[i] := by
          refine (Dict.get?_eq_some_iff base (by rw [hkeys]; exact hnd) _ _).2 ?_
          exact List.mem_map.2 ⟨o.doc.pois[i], List.getElem_mem hi', rfl⟩
        rw [hg, hkey, h2] at h1
        simp only [Option.map_some, Option.some.injEq] at h1
        simp only [Dict.values, List.getElem_map]
        exact h1.symm
    refine ⟨{ (Markup.withCutoff o opts.cutoff) with
      doc := { (Markup.withCutoff o opts.cutoff).doc with pois := q.values } }, ?_, ⟨?_, by rw [hcut], hfl⟩, ?_⟩
    · simp only [Markup.fitInput, ho, bind_ok, hreg, Option.isSome_none, Bool.false_eq_true, if_false, hs,
        Markup.withRanges, hcut, ← hbase, hq]
    · simp [hqv, List.map_map, Function.comp_def]
    · simp only [Markup.poiRanges, hqv, List.map_map, Function.comp_def]

/-- **C79** `--hypo` with assignments of numbers to all the POIs (and to nothing else), the last one selecting each POI giving
the value in `xh`: this is the hypothesis tested. Without `--hypo` nothing is tested. -/
theorem c79_hypo_option (T : Markup.Texts) (L : Cmd.Lib) (opt : Optim ℝ) (opts : Markup.FitOpts) (modelFile : Dict Markup.V)
    (dataFile : Option (Dict Markup.V)) (rep : Dict RepVal) (t : Option Mdl.HypoTest)
    (h : Markup.fitScript T L opt opts modelFile dataFile = .ok (rep, t)) :
    ∃ o A d, Markup.fitInput T L opts modelFile = .ok o ∧ o.mdl.setInternal = .ok A ∧
      Markup.fitData L o A opts.asimov modelFile dataFile = .ok d ∧ (opts.hypo = none → t = none) ∧
      ∀ as xh, opts.hypo = some (Cmd.render as) → AssignsPois L o as xh →
        (∀ a ∈ as, ∀ k, Selects L (Markup.parNames o) {} a k → ∃ i, k = o.mdl.pois i) →
        ∃ hypo : Dict ℝ, hypo.keys.Nodup ∧ (∀ k ∈ hypo.keys, ∃ i, k = o.mdl.pois i) ∧
          (∀ i, hypo.get? (o.mdl.pois i) = some (xh i)) ∧
          o.mdl.fitModel A d (Markup.fitSetup opt o) opts.method (some hypo) = .ok (rep, t) := by
  unfold Markup.fitScript at h
  obtain ⟨o, h1, h⟩ := bind_eq_ok.1 h
  obtain ⟨A, h2, h⟩ := bind_eq_ok.1 h
  obtain ⟨d, h3, h⟩ := bind_eq_ok.1 h
  obtain ⟨hy, h4, h⟩ := bind_eq_ok.1 h
  refine ⟨o, A, d, h1, h2, h3, ?_, ?_⟩
  · intro hno
    rw [hno] at h4
    have h4 := (Except.ok.inj (ε := PyErr) h4).symm
    subst h4
    have := c79_hypothesis_no_effect o.mdl A d _ _ none rep t h
    rw [h] at this
    have := Except.ok.inj (ε := PyErr) this
    simp only [Prod.mk.injEq, true_and] at this
    exact this
  · intro as xh hh has hpo
    obtain ⟨E, e1, e2, e3, e4⟩ := text_vals has
    rw [hh] at h4
    simp only [Markup.fitHypo, e1, bind_ok] at h4
    have h4 := (Except.ok.inj (ε := PyErr) h4).symm
    subst h4
    refine ⟨E, e2, ?_, e4, h⟩
    intro k hk
    obtain ⟨a, ha, hs⟩ := e3 k hk
    exact hpo a ha k hs

/-- **C79** The model is read with `--linear-nps` as given, the other options being the defaults; ranges that cannot be applied
stop the script. -/
theorem c79_options (T : Markup.Texts) (L : Cmd.Lib) (opt : Optim ℝ) (opts : Markup.FitOpts) (modelFile : Dict Markup.V)
    (dataFile : Option (Dict Markup.V)) :
    (∀ o, Markup.createModel T opts.linear_nps modelFile = .ok o → o.flags = { use_linear_nps := opts.linear_nps }) ∧
    ∀ o text e d, Markup.createModel T opts.linear_nps modelFile = .ok o → opts.setrange = some text →
      Cmd.processSetranges L text (o.doc.pois.map fun p => (p.name.getD "", p)) = (d, some e) →
      ∀ r, Markup.fitScript T L opt opts modelFile dataFile ≠ .ok r := by
  constructor
  · intro o h
    unfold Markup.createModel at h
    obtain ⟨doc, _, h⟩ := bind_eq_ok.1 h
    exact (initModel_ok h).2.1
  · intro o text e d ho hs he r hr
    have hcut : (Markup.withCutoff o opts.cutoff).doc = o.doc := by cases opts.cutoff <;> rfl
    unfold Markup.fitScript at hr
    obtain ⟨o', h1, _⟩ := bind_eq_ok.1 hr
    unfold Markup.fitInput at h1
    rw [ho, bind_ok] at h1
    by_cases hreg : opts.regularize.isSome
    · rw [if_pos hreg] at h1; cases h1
    · rw [if_neg hreg] at h1
      simp only [hs, Markup.withRanges, hcut, he] at h1
      cases h1

/-! ### The test of a hypothesis -/

theorem setPois_single (m : Mdl 1 P) (lo hi w : ℝ) : ∃ u,
    setPois m.parModel [⟨m.pois 0, some lo, some hi⟩] ⟨[w], List.replicate P 0⟩ none none false =
      .ok (⟨[u], List.replicate P 0⟩, [(m.pois 0, ⟨m.pois 0, some lo, some hi⟩)]) := by
  have e2 : buildBounds [(⟨m.pois 0, some lo, some hi⟩ : ParBound ℝ)] none none false =
      .ok [(m.pois 0, ⟨m.pois 0, some lo, some hi⟩)] := rfl
  obtain ⟨u, hu⟩ := Lim.set_free m lo hi 0 w (List.replicate P 0)
  refine ⟨u, ?_⟩
  unfold setPois at hu ⊢
  have e3 : setHypo m.parModel [(m.pois 0, w)] ⟨[(0 : ℝ)], List.replicate P 0⟩ = .ok ⟨[w], List.replicate P 0⟩ := by
    simp only [setHypo, Lim.par_set, bind_ok]
  have e4 : setHypo m.parModel [] (⟨[w], List.replicate P 0⟩ : Pars ℝ) = .ok ⟨[w], List.replicate P 0⟩ := rfl
  have e5 : buildBounds [(⟨m.pois 0, some lo, some hi⟩ : ParBound ℝ)] none (some [(m.pois 0, w)]) false =
      .ok [(m.pois 0, ⟨m.pois 0, some lo, some hi⟩)] := rfl
  simp only [Option.getD_some] at hu
  simp only [Option.getD_none]
  rw [e3, bind_ok, e5, bind_ok] at hu
  rw [e4, bind_ok, e2, bind_ok]
  exact hu

theorem bestFit_total {m : Mdl 1 P} {A : Mdl.Arrays} (hg : GaussianModel m A) (ha : AffineYields m A)
    {d : Mdl.DataV P} {best σ k lo hi : ℝ} (hσ : 0 < σ) (hp : Parabola m A d best σ k) (h1 : lo ≤ best)
    (h2 : best ≤ hi) (hlh : lo < hi) {floor : Option ℝ} {c : CalcSetup} (hc : CalculatorOf m lo hi c)
    (hend : EndsAtResult c.opt) (hF : FindsMinima P c.opt (m.fitEnv A d 1 floor) ⟨m.pois 0, some lo, some hi⟩)
    {method : String} (hm : KnownMethod method) :
    ∃ s, ∃ θ : Fin P → ℝ, bestFit c.opt (m.fitEnv A d 1 floor) c.m c.pois c.ref method = .ok (k, ⟨[best], List.ofFn θ⟩, s) ∧
      s.method = method ∧ s.altMethod = none ∧ s.rebound = 0 ∧
      s.bounds = some [(m.pois 0, ⟨m.pois 0, some lo, some hi⟩)] := by
  obtain ⟨w, hw⟩ := hc.start
  obtain ⟨u, hu⟩ := setPois_single m lo hi w
  obtain ⟨sf, θ, g1, g2, g3, g4⟩ := Lim.free_fit hg ha hσ hp h1 h2 hlh hend hF hm u none none
  refine ⟨{ method := sf.method, bounds := some [(m.pois 0, ⟨m.pois 0, some lo, some hi⟩)], tmuDebug := 0,
            minNll := sf.minNll, minPars := sf.minPars }, θ, ?_, g4, rfl, rfl, rfl⟩
  · unfold bestFit
    rw [hc.model, hc.range, hw, hu, bind_ok]
    dsimp only
    rw [g1, bind_ok]
    dsimp only
    rw [g3]
    rfl

/-- **C79** The test of a positive value of the only POI of a Gaussian model.  The script succeeds, reports the best-fit
value and its NLL, and prints the profile likelihood ratio of the measurement.  Finding F97: the "best-fit" value it prints
next to them is 0 whatever the data, since it is the one of the fit to the Asimov dataset made last. -/
theorem c79_printed_best_fit (m : Mdl 1 P) (A : Mdl.Arrays) (hg : GaussianModel m A) (ha : AffineYields m A)
    (hname : PlainNames m) (d : Mdl.DataV P) (best σ const : ℝ) (hσ : 0 < σ)
    (hp : Parabola m A d best σ const) (lo hi : ℝ) (c : CalcSetup) (method : String)
    (hu : GoodUse m A d (some (1 / 10 ^ 7)) best lo hi c { method := method, tmuDebug := 0 }) (hend : EndsAtResult c.opt)
    (hm : KnownMethod method) (v : ℝ) (hv : 0 < v) :
    ∃ rep t q cls pv, m.fitModel A d c method (some [(m.pois 0, v)]) = .ok (rep, some t) ∧
      (∃ θ, Reports m rep const (fun _ => best) θ) ∧ t.tmu = plr v σ best ∧
      t.qtilda = some (0, plr v σ best, q, pv, cls) := by
  obtain ⟨s, θ, hfit, s1, s2, s3, s4⟩ := bestFit_total hg ha hσ hp hu.range.2.1 hu.range.2.2.1 hu.range.1 hu.calculator
    hend hu.data hm
  set s0 : OptiMin ℝ := { method := method, tmuDebug := 0 } with hs0
  have hn : (List.ofFn m.pois).Nodup := (List.nodup_append.1 hname.distinct).1
  have hname' : ∀ p, (m.nps p).name ≠ m.pois 0 := by
    intro p e
    exact (List.nodup_append.1 hname.distinct).2.2 _ (List.mem_ofFn.2 ⟨0, rfl⟩) _ (List.mem_ofFn.2 ⟨p, rfl⟩) e.symm
  have hal : Alike c.pois s0 s := by
    refine ⟨s1.symm, rfl, s2, rfl, s3, ?_⟩
    rw [s4, hu.calculator.range]
    simp [hs0, argBounds, Dict.setAll, Dict.set, Dict.values]
  have hr0 : Reusable c.pois s0 := CleanUse.reusable (goodUse_clean hu)
  have hr : Reusable c.pois s := by
    obtain ⟨_, _, fr, f1, f2, f3⟩ := hr0
    exact ⟨s2, s3, fr, by rw [← hal.2.2.2.2.2]; exact f1, f2, fun e => f3 (hal.1.trans e)⟩
  -- the profile likelihood ratio
  obtain ⟨s0', out, ht, _, _⟩ := Lim.tmu_total hg ha hσ hp hu.range.2.1 hu.range.2.2.1 hu.range.1 hu.calculator
    hu.evaluates hend hu.data (s := s0) rfl rfl rfl hm v
  obtain ⟨htmu, _, _⟩ := Lim.tmu_plr hg hp hu.range.2.1 hu.range.2.2.1 hu.range.1 hu.calculator hu.evaluates hu.data
    (s := s0) rfl rfl rfl ht
  have e1 := tmu_alike c.opt hu.evaluates c.m c.pois (m.fitEnv A d 1 (some (1 / 10 ^ 7))) c.ref [(m.pois 0, v)] s0 s hal
  rw [ht] at e1
  obtain ⟨sa, hta⟩ := map_snd_ok e1.symm
  obtain ⟨ka, ra⟩ := tmu_keeps c.opt c.m c.pois _ _ _ s sa out hr hta
  have hal1 : Alike c.pois s0 sa := hal.trans ka
  -- the computation of q~mu
  obtain ⟨t0, pd, hq, _⟩ := Lim.q_total hg ha hname' hσ hp hu hend hm .qmutilda hv
  obtain ⟨t1, hq1⟩ := fastQ_alike c hu.evaluates .qmutilda _ _ none s0 sa t0 pd hal1 hr0 ra hq
  obtain ⟨u1, d1, ae, a, d2, q1, q2, q3, q4, q5⟩ := (fastQ_inv c _ _ _ none sa t1 pd).1 hq1
  obtain ⟨sx, ff, hf, p1, _⟩ := Lim.plr_total hg ha hname' hσ hp hu.range.2.1 hu.range.2.2.1 hu.range.1 hu.calculator
    hu.evaluates hend hu.data (s := s0) rfl rfl rfl hm v
  have e2 := fastPlr_alike c hu.evaluates (m.fitEnv A d 1 (some (1 / 10 ^ 7))) [(m.pois 0, v)] none s0 sa hal1
  rw [p1, show fastPlr c (m.fitEnv A d 1 (some (1 / 10 ^ 7))) [(m.pois 0, v)] none sa = .ok (u1, d1) from q1] at e2
  have e2 := (Except.ok.inj (ε := PyErr) e2).symm
  dsimp only at e2
  obtain ⟨ku, ru⟩ := fastPlr_keeps c _ _ none sa u1 d1 ra q1
  -- the Asimov dataset
  have had : ∃ ad, m.asimovData A d = .ok ad ∧ ae = m.fitEnv A ad 1 (some (1 / 10 ^ 7)) := by
    simp only [Mdl.dataEnv] at q2
    obtain ⟨ad, g1, g2⟩ := bind_eq_ok.1 q2
    exact ⟨ad, g1, (Except.ok.inj (ε := PyErr) g2).symm⟩
  obtain ⟨ad, had, rfl⟩ := had
  obtain ⟨σ', hσ', hd, hasp⟩ := Lim.uncertainty hg ha
  obtain ⟨b', k', hp'⟩ := hd d
  obtain ⟨_, rfl, _⟩ := Lim.Parabola.unique hσ hσ' hp hp'
  have had' := had
  unfold Mdl.asimovData at had'
  obtain ⟨θa, _, hgen⟩ := bind_eq_ok.1 had'
  obtain ⟨k0, hpa⟩ := hasp 0 θa ad hgen
  obtain ⟨sy, outA, htA, _, θf, hfree⟩ := Lim.tmu_total hg ha hσ hpa hu.range.2.2.2.1 hu.range.2.2.2.2 hu.range.1
    hu.calculator hu.evaluates hend (hu.asimov ad had) (s := s0) rfl rfl rfl hm v
  obtain ⟨oA, hoA, _⟩ := fastPlr_tmu c _ _ none u1 t1 a q3
  have e3 := tmu_alike c.opt hu.evaluates c.m c.pois (m.fitEnv A ad 1 (some (1 / 10 ^ 7))) c.ref [(m.pois 0, v)] s0 u1
    (hal1.trans ku)
  rw [htA, show OptiMin.tmu c.opt c.m c.pois (m.fitEnv A ad 1 (some (1 / 10 ^ 7))) c.ref [(m.pois 0, v)] u1 = .ok (t1, oA)
    from hoA] at e3
  have e3 := (Except.ok.inj (ε := PyErr) e3).symm
  dsimp only at e3
  subst e3
  have hmin : t1.minPars = some ⟨[0], List.ofFn θf⟩ := by
    have hh := hoA
    rw [tmu_eq_attempt _ _ _ _ _ _ u1 ru.1 ru.2.1] at hh
    obtain ⟨_, _, _, _, _, _, _, _, _, _, _, _, _, _, _, _, _, hs⟩ := attempt_inv _ _ _ _ _ _ u1 t1 oA hh
    rw [hs, ← hfree]
  -- the numbers printed
  have hstat : d2.testStats.get? "tmu" = some (plr v σ best) := by
    simp only [PLRData.setAsimov] at q4
    obtain ⟨w, _, q4⟩ := bind_eq_ok.1 q4
    rw [← Except.ok.inj (ε := PyErr) q4, e2]
    simp [Dict.set, Dict.get?]
  have hpd : ∃ q pv cls, pd.testStats.get? "tmu" = some (plr v σ best) ∧ pd.testStats.get? "q~mu" = some q ∧
      pd.pvs.get? "pv" = some pv ∧ pd.pvs.get? "cls" = some cls := by
    simp only [fillPv] at q5
    obtain ⟨q, _, q5⟩ := bind_eq_ok.1 q5
    obtain ⟨pv, _, q5⟩ := bind_eq_ok.1 q5
    obtain ⟨cls, _, q5⟩ := bind_eq_ok.1 q5
    obtain ⟨clb, _, q5⟩ := bind_eq_ok.1 q5
    rw [← Except.ok.inj (ε := PyErr) q5]
    refine ⟨q.value, pv, cls, ?_, Dict.get?_set_self _ _ _, ?_, ?_⟩
    · rw [Dict.get?_set_ne _ _ (by decide)]; exact hstat
    · rw [Dict.get?_set_ne _ _ (by decide), Dict.get?_set_ne _ _ (by decide), Dict.get?_set_self]
    · rw [Dict.get?_set_ne _ _ (by decide), Dict.get?_set_self]
  obtain ⟨q, pv, cls, z1, z2, z3, z4⟩ := hpd
  have hrep := FitS.report_eq m A d const (fun _ => best) θ hn
  rw [show (List.ofFn fun _ : Fin 1 => best) = [best] from by simp [List.ofFn_succ]] at hrep
  obtain ⟨rep, hrep⟩ : ∃ rep, m.fitReport A d const ⟨[best], List.ofFn θ⟩ = .ok rep := ⟨_, hrep⟩
  refine ⟨rep, ⟨out.tmu, out.hypoPars, some (0, plr v σ best, q, pv, cls)⟩, q, cls, pv, ?_, ?_, htmu, rfl⟩
  rotate_left
  · refine ⟨θ, (FitS.report_spec m A d const (fun _ => best) θ hname _ ?_).1⟩
    rw [show (List.ofFn fun _ : Fin 1 => best) = [best] from by simp [List.ofFn_succ]]
    exact hrep
  · unfold Mdl.fitModel
    rw [hfit, bind_ok]
    dsimp only
    rw [hrep, bind_ok]
    have hone : m.testOne A d c [(m.pois 0, v)] sa = .ok (some (0, plr v σ best, q, pv, cls)) := by
      unfold Mdl.testOne Mdl.testQTilda
      simp only [if_true, had, bind_ok, hq1, hmin, Dict.getItem, z1, z2, z3, z4]
      rfl
    have htest : m.testHypo A d c [(m.pois 0, v)] s =
        .ok ⟨out.tmu, out.hypoPars, some (0, plr v σ best, q, pv, cls)⟩ := by
      unfold Mdl.testHypo
      rw [hta, bind_ok]
      dsimp only
      rw [hone, bind_ok]
      rfl
    unfold Mdl.testHypoOpt
    dsimp only
    rw [htest]
    rfl

/-! ## Non-vacuity -/

/-- An optimiser that is right for the free fits of a model with one POI is right for the fit of the script. -/
theorem goodFit_one {m : Mdl 1 P} {env : FitEnv ℝ} {lo hi : ℝ} (hlh : lo < hi) {c : CalcSetup} (hc : CalculatorOf m lo hi c)
    (hend : EndsAtResult c.opt) (hF : FindsMinima P c.opt env ⟨m.pois 0, some lo, some hi⟩) :
    GoodFit c.opt env c.m c.pois c.ref := by
  obtain ⟨w, hw⟩ := hc.start
  obtain ⟨u, hu⟩ := setPois_single m lo hi w
  intro p b fr method h1 h2 _
  rw [hc.model, hc.range, hw, hu] at h1
  have h1 := Except.ok.inj (ε := PyErr) h1
  simp only [Prod.mk.injEq] at h1
  obtain ⟨rfl, rfl⟩ := h1
  rw [Lim.free_free _ lo hi hlh] at h2
  have h2 := Except.ok.inj (ε := PyErr) h2
  subst h2
  exact ⟨hF method u, (hend env method _ _).2⟩

theorem goodTest_one {m : Mdl 1 P} {env : FitEnv ℝ} {lo hi : ℝ} (hlh : lo < hi) {c : CalcSetup} (hc : CalculatorOf m lo hi c)
    (hF : FindsMinima P c.opt env ⟨m.pois 0, some lo, some hi⟩) (v : ℝ) :
    GoodTest c.opt env c.m c.pois c.ref [(m.pois 0, v)] := by
  obtain ⟨w, hw⟩ := hc.start
  obtain ⟨u, hu⟩ := Lim.set_free m lo hi w v (List.replicate P 0)
  intro p b fr method h1 h2 _
  rw [hc.model, hc.range, hw, hu] at h1
  have h1 := Except.ok.inj (ε := PyErr) h1
  simp only [Prod.mk.injEq] at h1
  obtain ⟨rfl, rfl⟩ := h1
  rw [Lim.free_free _ lo hi hlh] at h2
  have h2 := Except.ok.inj (ε := PyErr) h2
  subst h2
  exact hF method u

theorem fitsOf_one {m : Mdl 1 P} {lo hi : ℝ} (hlh : lo ≤ hi) {c : CalcSetup} (hc : CalculatorOf m lo hi c) : FitsOf m c where
  model := hc.model
  ranges := by rw [hc.range]; simp [List.ofFn_succ]
  ordered := by
    intro r hr a b ha hb
    rw [hc.range, List.mem_singleton] at hr
    subst hr
    simp only [Option.some.injEq] at ha hb
    rw [← ha, ← hb]; exact hlh
  start := by
    obtain ⟨w, hw⟩ := hc.start
    exact ⟨fun _ => w, by rw [hw]; simp [List.ofFn_succ]⟩

theorem sb_plain : PlainNames Demo.sb where
  distinct := by simp [Demo.sb, List.ofFn_succ]
  free := by intro i; rw [Subsingleton.elim i 0]; simp [Demo.sb]

/-- The fit of the demo model with signal and background: the hypotheses of `c79_printed_best_fit`, `c79_best_fit`,
`c79_gaussian`, `c79_uncertainty` and `c79_name_clash` are met together, for every dataset, in a range around the best-fit
value, and the script succeeds. -/
theorem sb_fit (d : Mdl.DataV 1) : ∃ A c best σ const rep t, Demo.sb.setInternal = .ok A ∧ 0 < σ ∧
    Parabola Demo.sb A d best σ const ∧ FitsOf Demo.sb c ∧ WithinRanges Demo.sb c.pois (fun _ => 1) ∧
    GoodFit c.opt (Demo.sb.fitEnv A d 1 (some (1 / 10 ^ 7))) c.m c.pois c.ref ∧
    (GoodTest c.opt (Demo.sb.fitEnv A d 1 (some (1 / 10 ^ 7))) c.m c.pois c.ref [("mu", 1)] ∧
      ∀ env method p fr, (c.opt env method p fr).evals ≠ []) ∧
    Demo.sb.fitModel A d c "scalar" (some [("mu", 1)]) = .ok (rep, some t) ∧ t.tmu = plr 1 σ best ∧
    ∃ θ, Reports Demo.sb rep const (fun _ => best) θ := by
  obtain ⟨A, hA, hg, ha, hn, best, σ, const, hσ, hp, hu⟩ := sb_use d
  obtain ⟨u1, u2, u3⟩ := hu (-(|best| + 1)) (|best| + 1) (by linarith [abs_nonneg best])
    (by linarith [neg_abs_le best]) (by linarith [le_abs_self best]) (by linarith [abs_nonneg best])
    (by linarith [abs_nonneg best]) (some (1 / 10 ^ 7))
  obtain ⟨rep, t, q, cls, pv, h1, h2, h3, h4⟩ := c79_printed_best_fit Demo.sb A hg ha sb_plain d best σ const hσ hp _ _ _ _
    u1 u2 u3 1 one_pos
  refine ⟨A, _, best, σ, const, rep, t, hA, hσ, hp, fitsOf_one u1.range.1.le u1.calculator, ?_,
    goodFit_one u1.range.1 u1.calculator u2 u1.data,
    ⟨goodTest_one u1.range.1 u1.calculator u1.data 1, u1.evaluates⟩, h1, h3, h2⟩
  intro r hr i _
  rw [u1.calculator.range, List.mem_singleton] at hr
  subst hr
  constructor
  · intro lo h
    have h := Option.some.inj h
    rw [← h]; linarith [abs_nonneg best]
  · intro hi h
    have h := Option.some.inj h
    rw [← h]; linarith [abs_nonneg best]

/-- `c79_hypothesis` for this model, the hypothesis `mu = 1` and any dataset. -/
example (d : Mdl.DataV 1) : ∃ A c rep r v x θ vh θh, Demo.sb.setInternal = .ok A ∧
    Demo.sb.fitModel A d c "scalar" (some [("mu", 1)]) = .ok (rep, some r) ∧ Reports Demo.sb rep v x θ ∧
    Demo.sb.profileNps A (fun _ => 1) d 1 0 = .ok θh ∧
    Demo.sb.nll A (fun _ => 1) θh d true (some (1 / 10 ^ 7)) = .ok (.fin vh) ∧ v ≤ vh ∧ r.tmu = 2 * (vh - v) := by
  obtain ⟨A, c, best, σ, const, rep, t, hA, hσ, hp, hc, hw, hgood, ⟨hg1, hg2⟩, hfit, _, _⟩ := sb_fit d
  obtain ⟨r, v, x, θ, vh, θh, e1, e2, e3, e4, e5, e6, e7⟩ := c79_hypothesis Demo.sb A d c hc sb_plain _ [("mu", 1)]
    (by simp [Dict.keys]) (fun _ => 1) (by intro k hk; exact ⟨0, by simpa [Dict.keys, Demo.sb] using hk⟩)
    (by intro i; rw [Subsingleton.elim i 0]; simp [Demo.sb, Dict.get?]) rep _ hfit hgood hg1 hg2
  have hle := e7 hw
  cases e1
  exact ⟨A, c, rep, t, v, x, θ, vh, θh, hA, hfit, e2, e3, e4, hle, by rw [e6, max_eq_right (by linarith)]⟩

/-- `c79_gaussian` for this model and any dataset. -/
example (d : Mdl.DataV 1) : ∃ A c rep t v x θ, Demo.sb.setInternal = .ok A ∧
    Demo.sb.fitModel A d c "scalar" (some [("mu", 1)]) = .ok (rep, t) ∧ Reports Demo.sb rep v x θ ∧
    IsLeast (nllsWhere Demo.sb A d (WithinRanges Demo.sb c.pois)) v := by
  obtain ⟨A, c, best, σ, const, rep, t, hA, hσ, hp, hc, _, hgood, _, hfit, _, _⟩ := sb_fit d
  obtain ⟨A', hA', h0, h1⟩ := Demo.sb_internal
  have e := Except.ok.inj (ε := PyErr) (hA.symm.trans hA')
  subst e
  have hg := Demo.sb_gaussian h0 h1
  obtain ⟨N0, hN0⟩ := hg.ref
  obtain ⟨v, x, θ, g1, _, _, g4⟩ := c79_gaussian Demo.sb A d c hc sb_plain _ _ rep _ hfit hgood hg.sym hg.lin hg.cut hg.noLog
    hg.hsym hg.hpsd hg.noPoisson hg.constrained N0 hN0
  exact ⟨A, c, rep, some t, v, x, θ, hA, hfit, g1, g4⟩

/-- `c79_asimov` for the Asimov dataset of this model at `mu = 1`: the point reported predicts 12, the NP is at its nominal
value, so that `mu = 1`. -/
example : ∃ A c d rep t v x θ, Demo.sb.setInternal = .ok A ∧ Demo.sb.generateAsimov A (fun _ => 1) 0 = .ok d ∧
    Demo.sb.fitModel A d c "scalar" (some [("mu", 1)]) = .ok (rep, t) ∧ Reports Demo.sb rep v x θ ∧ x 0 = 1 ∧ θ 0 = 0 := by
  obtain ⟨A, hA, h0, h1⟩ := Demo.sb_internal
  have hg := Demo.sb_gaussian h0 h1
  obtain ⟨N, hN, e0, e1⟩ := Demo.sb_yields h0 h1 (fun _ => 1) 0
  have hd : Demo.sb.generateAsimov A (fun _ => 1) 0 = .ok ⟨N, 0⟩ := by simp [Mdl.generateAsimov, hN]
  obtain ⟨A', c, best, σ, const, rep, t, hA', hσ, hp, hc, hw, hgood, _, hfit, _, _⟩ := sb_fit ⟨N, 0⟩
  have e := Except.ok.inj (ε := PyErr) (hA'.symm.trans hA)
  subst e
  obtain ⟨N0, hN0⟩ := hg.ref
  have hprof : ∃ θ, Demo.sb.profileNps A' (fun _ => 1) ⟨N, 0⟩ 1 0 = .ok θ := by
    obtain ⟨y, θ, hy, hv⟩ := (hp 1).1
    have ey : y = fun _ => 1 := funext fun i => by rw [Subsingleton.elim i 0]; exact hy
    subst ey
    obtain ⟨θ1, v1, g1, _⟩ := Mdl.gauss_min hg.sym hg.lin hg.cut hg.noLog hg.hsym hg.hpsd hg.noPoisson hg.constrained hN0 hv
    exact ⟨θ1, g1⟩
  obtain ⟨v, x, θ, g1, g2, g3, M, hM, g4, g5, g6⟩ := c79_asimov Demo.sb A' ⟨N, 0⟩ c hc sb_plain _ _ rep _ hfit hgood hg.hpsd
    hg.hsym N0 hN0 (by rw [hg.noPoisson]; simp) (fun _ => 1) hw hd (by rw [hg.noPoisson]; simp) hprof
  have hθ : θ 0 = 0 := g6 0 (by simp [NP.constraintWeight, Demo.sb, NP.scaledConstraint])
  refine ⟨A', c, _, rep, some t, v, x, θ, hA', hd, hfit, g1, ?_, hθ⟩
  obtain ⟨M', hM', m0, _⟩ := Demo.sb_yields h0 h1 x θ
  have e := Except.ok.inj (ε := PyErr) (hM.symm.trans hM')
  subst e
  rw [Demo.sb_shapes.2.2.2, Demo.sb_shapes.2.2.1] at g5
  simp only [Finset.sum_range_one, Nat.zero_add, Demo.sb_hessian, m0, hθ] at g5
  simp only [e0] at g5
  simp at g5
  nlinarith

/-- `c79_uncertainty_blind` on this model and the Asimov dataset at `mu = 1`: the covariance at the best-fit point is 3 (as for
a Poisson count of 12), whatever the covariance of the channel and the constraint of the NP; the uncertainty of the
measurement of `mu` is `sqrt(26)/2` (unit covariance of the channel, 5 from the NP, slope 2). -/
example : ∃ (A : Mdl.Arrays) (d : Mdl.DataV 1) (C : Matrix (Fin 1) (Fin 1) ℝ) (const : ℝ), Demo.sb.setInternal = .ok A ∧
    Demo.sb.generateAsimov A ![1] 0 = .ok d ∧ C 0 0 = 3 ∧ Parabola Demo.sb A d 1 (Real.sqrt 26 / 2) const ∧
    ∀ cov cons, (withErrors Demo.sb cov cons).covarianceMatrix A ![1] 0 d = some C := by
  obtain ⟨A, hA, h0, h1⟩ := Demo.sb_internal
  have hg := Demo.sb_gaussian h0 h1
  obtain ⟨N, hN, e0, e1⟩ := Demo.sb_yields h0 h1 ![1] 0
  have hd : Demo.sb.generateAsimov A ![1] 0 = .ok ⟨N, 0⟩ := by simp [Mdl.generateAsimov, hN]
  have hD : Demo.sb.ctx.Distinct := by simp [ExprCtx.Distinct, Mdl.ctx, Demo.sb, Dict.keys]
  have hE : Demo.sb.NoEmptyNorm := by
    intro ch hc s hs
    simp only [Demo.sb, List.mem_singleton] at hc
    subst hc
    simp only [List.mem_cons, List.not_mem_nil, or_false] at hs
    rcases hs with rfl | rfl <;> simp
  obtain ⟨H, hH⟩ := c15_hessian_exists Demo.sb A hD hE ![1] 0 ⟨N, 0⟩ N hN _ (Demo.sb_vals _) (by simp [Demo.sb])
  have hpos : ∀ b < 1, 0 < N b := by
    intro b hb
    interval_cases b
    rw [e0]; norm_num
  obtain ⟨M, g, hev, hgr, hF, _, _⟩ := c62_asimov_fisher Demo.sb A hD hE ![1] 0 ⟨N, 0⟩ hd
    (by rw [Demo.sb_shapes.1]; exact hpos) H hH
  have hM : ∀ᶠ y in nhds (![1] : Fin 1 → ℝ), M 0 y = 2 * y 0 + 10 := by
    filter_upwards [hev] with y ⟨t, ht, hb'⟩
    obtain ⟨N', hN', k0, _⟩ := Demo.sb_yields h0 h1 y 0
    have : t = N' := Except.ok.inj (ε := PyErr) (ht.symm.trans hN')
    subst this
    rw [← hb', k0]; simp; ring
  have g0 : g 0 0 = 2 := by
    have h := ((hasGrad_proj (0 : Fin 1) ![(1:ℝ)]).const_mul 2).add (hasGrad_const 10 _)
    have := (hgr 0).unique (h.congr (hM.mono (fun y hy => by rw [hy])))
    rw [this]; simp
  have m0 : M 0 ![1] = 12 := by rw [hM.self_of_nhds]; norm_num
  have hH0 : H 0 0 = 1 / 3 := by
    rw [hF, Demo.sb_shapes.1, Finset.sum_range_one, g0, m0]; norm_num
  have hp : PosDefinite H := by
    intro δ hδ
    have : δ 0 ≠ 0 := fun h => hδ (funext fun i => by rw [Subsingleton.elim i 0, h]; rfl)
    have h2 : 0 < δ 0 ^ 2 := by positivity
    simp only [quadForm, Fin.sum_univ_one, hH0]
    nlinarith
  refine ⟨A, ⟨N, 0⟩, (Matrix.of H)⁻¹, -72, hA, hd, ?_, ?_, ?_⟩
  · rw [Matrix.inv_def, Matrix.det_fin_one]
    simp [hH0]
  · obtain ⟨R, hR, r0, _⟩ := Demo.sb_yields h0 h1 Demo.sb.poiInit 0
    have hv : ∀ y θ, Demo.sb.nll A y θ ⟨N, 0⟩ = .ok (.fin (-72 + (2 * (y 0 - 1) + 5 * θ 0) ^ 2 / 2 + θ 0 ^ 2 / 2)) := by
      intro y θ
      obtain ⟨K, hK, k0, _⟩ := Demo.sb_yields h0 h1 y θ
      have := Mdl.nll_off_ok (d := ⟨N, 0⟩) (nc := false) hK (by rw [Demo.sb_shapes.2.2.1]; simp)
        (show Demo.sb.refTot A = .ok R from hR) (by rw [Demo.sb_shapes.2.2.1]; simp)
      rw [this]
      congr 2
      simp only [Mdl.nllValOff, Mdl.quad, Mdl.constraintTerm_eq, Demo.sb_shapes.2.2.1, Demo.sb_shapes.2.2.2,
        Finset.range_zero, Finset.sum_empty, Finset.sum_range_one, Demo.sb_hessian, k0, r0, e0, Fin.sum_univ_one]
      have hw : (Demo.sb.nps 0).constraintWeight = 1 := by simp [Demo.sb, NP.constraintWeight, NP.scaledConstraint]
      rw [hw]
      simp [Demo.sb]
      ring
    intro x
    have h26 : (Real.sqrt 26 / 2) ^ 2 = 26 / 4 := by rw [div_pow, Real.sq_sqrt (by norm_num)]; norm_num
    have hval : -72 + ((x - 1) / (Real.sqrt 26 / 2)) ^ 2 / 2 = -72 + (x - 1) ^ 2 * (4 / 26) / 2 := by
      rw [div_pow, h26]; ring
    rw [hval]
    constructor
    · refine ⟨fun _ => x, fun _ => -(10 / 26) * (x - 1), rfl, ?_⟩
      rw [hv]
      congr 2
      ring
    · rintro v ⟨y, θ, hy, hv'⟩
      rw [hv] at hv'
      have hv' := Flt.fin.inj (Except.ok.inj (ε := PyErr) hv')
      rw [← hv', hy]
      nlinarith [sq_nonneg (26 * θ 0 + 10 * (x - 1))]
  · intro cov cons
    rw [c79_uncertainty_blind]
    simp only [Mdl.covarianceMatrix, hH, Cov.posdef_det hp, if_false]

open Classical in
/-- A fit that fails (`c79_failed_fit`). -/
example (A : Mdl.Arrays) (d : Mdl.DataV 1) : ∃ (c : CalcSetup) (p : Pars ℝ) (b : Dict (ParBound ℝ))
    (fr : List (Nat × ParBound ℝ)), setPois c.m c.pois c.ref none none false = .ok (p, b) ∧ freeBounds b = .ok fr ∧ fr ≠ [] ∧
    ∀ method, (c.opt (Demo.sb.fitEnv A d 1 (some (1 / 10 ^ 7))) method p fr).success = false := by
  obtain ⟨u, hu⟩ := setPois_single Demo.sb 0 1 0
  exact ⟨⟨fun _ _ _ _ => ⟨[[0]], [0], 0, false⟩, Demo.sb.parModel, [⟨Demo.sb.pois 0, some 0, some 1⟩],
    ⟨[0], List.replicate 1 0⟩⟩, _, _, _, hu, Lim.free_free _ 0 1 one_pos, by simp, fun _ => rfl⟩

/-- The conditions of `c79_asimov_option`, `c79_ranges` and `c79_regularize`, on a model read from a file: `--asimov mu=1` and
`--setrange mu=0:1`. -/
example : ∃ D o, Markup.createModel MarkupDemo.texts false D = .ok o ∧ o.doc.pois ≠ [] ∧
    (∃ A, o.mdl.setInternal = .ok A ∧ Markup.fitData cmdLib o A (some "mu=1".toList) D none =
      o.mdl.generateAsimov A (fun _ => 1) 0) ∧
    ∃ o', Markup.fitInput MarkupDemo.texts cmdLib { setrange := some "mu=0:1".toList } D = .ok o' ∧
      Markup.poiRanges o' = [⟨"mu", some 0, some 1⟩] ∧ Markup.poiRanges o = [⟨"mu", some 0, some 10⟩] := by
  obtain ⟨D, -, h2⟩ := c32_constructed_roundtrip MarkupDemo.lawful
    (MarkupDemo.storable (.multi [.str "a", .str "b"]) rfl ⟨_, rfl⟩) (MarkupDemo.init (.multi [.str "a", .str "b"]) rfl)
    (MarkupDemo.faithful (.multi [.str "a", .str "b"]) rfl rfl)
  obtain ⟨-, -, A, ne, hA, -⟩ := Props.initModel_ok (MarkupDemo.init (.multi [.str "a", .str "b"]) rfl)
  set o := MarkupDemo.obj (.multi [.str "a", .str "b"]) with ho
  have hc : Markup.createModel MarkupDemo.texts false D = .ok o := h2
  have hpoi : ∀ i, o.mdl.pois i = "mu" := by
    intro p
    have : p = ⟨0, by simp [ho, MarkupDemo.obj]⟩ := by
      apply Fin.ext
      have h := p.2
      simp only [ho, MarkupDemo.obj, List.length_cons, List.length_nil] at h
      exact Nat.lt_one_iff.1 h
    rw [this]
    simp [Markup.Obj.mdl, ho, MarkupDemo.obj]
  have hmem : "mu" ∈ List.ofFn o.mdl.pois :=
    List.mem_ofFn.2 ⟨⟨0, by simp [ho, MarkupDemo.obj]⟩, hpoi _⟩
  have hsel : Selects cmdLib (Markup.parNames o) {} ("mu".toList, "1".toList) "mu" := by
    simp [Selects, cmdLib, Markup.parNames, hmem]
  refine ⟨D, o, hc, by simp [ho, MarkupDemo.obj], ⟨A, hA, ?_⟩, ?_⟩
  · refine c79_asimov_option cmdLib o A [("mu".toList, "1".toList)] (fun _ => 1) ⟨by simp, by simp [Cmd.Plain], ?_, ?_, ?_⟩ D
    · intro a ha
      rw [List.mem_singleton] at ha
      subst ha
      exact ⟨"mu", hsel⟩
    · intro a ha
      rw [List.mem_singleton] at ha
      subst ha
      exact ⟨1, by simp [cmdLib]⟩
    · intro i
      exact ⟨[], _, [], rfl, by rw [hpoi]; exact hsel, by simp, by simp [cmdLib]⟩
  · obtain ⟨o', h1, -, h3⟩ := (c79_ranges MarkupDemo.texts cmdLib { setrange := some "mu=0:1".toList } D o hc rfl).2
      [("mu".toList, .between ['0'] ['1'])] (by simp) rfl (by simp [ho, MarkupDemo.obj])
      (by simp [Cmd.Plain, RangeText.Plain, RangeText.lo, RangeText.hi])
      (by simp [RangeOk, cmdLib, RangeText.lo, RangeText.hi, ho, MarkupDemo.obj])
    refine ⟨o', h1, ?_, by simp [Markup.poiRanges, ho, MarkupDemo.obj]⟩
    rw [h3]
    simp [Markup.poiRanges, ho, MarkupDemo.obj, lastEnd, cmdLib, RangeText.lo, RangeText.hi]

end Verif.Props
