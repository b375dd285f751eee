import Verif.Lemmas.Limits
import Verif.Props.Calc
import Verif.Props.Wald
import Verif.Props.Scans
/-!
# C73: limits of a Gaussian model, from the model and the data to the stored p-values
-/
namespace Verif.Props
open Verif.Spec Verif.Lim

variable {P : Nat}

/-- C73: a Gaussian model with one POI and yields that are affine in all the parameters measures its POI
as a Gaussian measurement would: the NLL minimised over the NPs is a parabola, with an uncertainty that is
the same for all datasets.  On an Asimov dataset, generated at any NP values, the best-fit value is the one
it was generated at. -/
theorem c73_gaussian_measurement (m : Mdl 1 P) (A : Mdl.Arrays) (hg : GaussianModel m A)
    (ha : AffineYields m A) :
    ∃ σ, 0 < σ ∧ (∀ d, ∃ best const, Parabola m A d best σ const) ∧
      ∀ x θ d, m.generateAsimov A (fun _ => x) θ = .ok d → ∃ const, Parabola m A d x σ const :=
  uncertainty hg ha

/-- The best-fit value, the uncertainty and the minimum are properties of the model and the data. -/
theorem c73_measurement_unique (m : Mdl 1 P) (A : Mdl.Arrays) (d : Mdl.DataV P) (b σ k b' σ' k' : ℝ)
    (hσ : 0 < σ) (hσ' : 0 < σ') (h : Parabola m A d b σ k) (h' : Parabola m A d b' σ' k') :
    b = b' ∧ σ = σ' ∧ k = k' := Parabola.unique hσ hσ' h h'

theorem goodUse_clean {m : Mdl 1 P} {A : Mdl.Arrays} {d : Mdl.DataV P} {floor : Option ℝ} {best lo hi : ℝ}
    {c : CalcSetup} {s0 : OptiMin ℝ} (h : GoodUse m A d floor best lo hi c s0) : CleanUse c s0 where
  evaluates := h.evaluates
  noAlt := h.noAlt
  noRebound := h.noRebound
  free := by
    rw [h.fresh, h.calculator.range, Option.map_none]
    refine ⟨[(0, ⟨m.pois 0, some lo, some hi⟩)], ?_, by simp, fun _ => rfl⟩
    exact free_free (m.pois 0) lo hi h.range.1

/-- The statistics of a computation for one hypothesis. -/
theorem fastQ_plr {m : Mdl 1 P} {A : Mdl.Arrays} (hg : GaussianModel m A) (ha : AffineYields m A)
    {d : Mdl.DataV P} {best σ const : ℝ} (hσ : 0 < σ) (hp : Parabola m A d best σ const)
    {floor : Option ℝ} {lo hi : ℝ} {c : CalcSetup} {s0 s1 : OptiMin ℝ}
    (hu : GoodUse m A d floor best lo hi c s0) {k : CalcKind} {v : ℝ} {pd : PLRData}
    (h : fastQ c k (m.dataEnv A 1 floor d) [(m.pois 0, v)] none s0 = .ok (s1, pd)) :
    tmuIs pd (plr v σ best) ∧ statIs pd "tmu_A0" (plr v σ 0) ∧
      FitNlls pd (const + ((v - best) / σ) ^ 2 / 2) const := by
  obtain ⟨t1, d1, ae, a, d2, h1, h2, h3, h4, h5⟩ := (fastQ_inv c k _ _ none s0 s1 pd).1 h
  simp only [Mdl.dataEnv] at h1 h2
  obtain ⟨o, ho, hpl⟩ := fastPlr_tmu c _ _ none s0 t1 d1 h1
  rw [Option.getD_none] at ho
  obtain ⟨r1, r2, r3⟩ := tmu_plr hg hp hu.range.2.1 hu.range.2.2.1 hu.range.1 hu.calculator hu.evaluates hu.data
    hu.noAlt hu.noRebound hu.fresh ho
  obtain ⟨ad, had, hae⟩ := bind_eq_ok.1 h2
  have eae := Except.ok.inj (ε := PyErr) hae
  subst eae
  obtain ⟨hal, _⟩ := fastPlr_keeps c _ _ none s0 t1 d1 (CleanUse.reusable (goodUse_clean hu)) h1
  have e3 := fastPlr_alike c hu.evaluates (m.fitEnv A ad 1 floor) [(m.pois 0, v)] none t1 s0 hal.symm
  rw [h3] at e3
  obtain ⟨t2, h3'⟩ := map_snd_ok e3.symm
  obtain ⟨o', ho', hpl'⟩ := fastPlr_tmu c _ _ none s0 t2 a h3'
  rw [Option.getD_none] at ho'
  obtain ⟨σ', hσ', hd, has⟩ := uncertainty hg ha
  obtain ⟨b', k', hp'⟩ := hd d
  obtain ⟨_, rfl, _⟩ := Parabola.unique hσ hσ' hp hp'
  have had' := had
  unfold Mdl.asimovData at had'
  obtain ⟨θ, _, hgen⟩ := bind_eq_ok.1 had'
  obtain ⟨k0, hpa⟩ := has 0 θ ad hgen
  obtain ⟨q1, _, _⟩ := tmu_plr hg hpa hu.range.2.2.2.1 hu.range.2.2.2.2 hu.range.1 hu.calculator hu.evaluates
    (hu.asimov ad had) hu.noAlt hu.noRebound hu.fresh ho'
  obtain ⟨ff, hf, i1, i2, rfl, _⟩ := plrOf_spec c _ none o d1 hpl
  obtain ⟨ff', hf', i1', i2', rfl, _⟩ := plrOf_spec c _ none o' a hpl'
  simp only [PLRData.setAsimov, Dict.getItem, Dict.get?, if_true, bind_ok, pure_ok] at h4
  have e2 := Except.ok.inj (ε := PyErr) h4
  obtain ⟨f1, f2, f3, f4, f5⟩ := fillPv_fixed h5
  refine ⟨?_, ?_, ?_⟩
  · unfold tmuIs
    rw [f5 "tmu" (by decide) (by decide), ← e2, ← r1]
    simp [Dict.set, Dict.get?]
  · unfold statIs
    rw [f5 "tmu_A0" (by decide) (by decide), ← e2, ← q1]
    simp [Dict.set, Dict.get?]
  · refine ⟨hf, ff, ?_, ?_, ?_, ?_⟩
    · rw [f3, ← e2]
    · rw [f2, ← e2]
    · rw [init_nll i2, r2]
    · rw [init_nll i1, r3]

/-- The hypotheses of a scan of the POI of the model. -/
def scanHypos (m : Mdl 1 P) (mus : List ℝ) : List Hypo := mus.map (fun mu => [(m.pois 0, mu)])

/-- C73: the profile likelihood ratios stored for a scan of the POI, with the data and with the Asimov
dataset, are the ones of the Gaussian measurement. -/
theorem c73_statistics (m : Mdl 1 P) (A : Mdl.Arrays) (hg : GaussianModel m A) (ha : AffineYields m A)
    (d : Mdl.DataV P) (best σ const : ℝ) (hσ : 0 < σ) (hp : Parabola m A d best σ const)
    (floor : Option ℝ) (lo hi : ℝ) (c : CalcSetup) (s0 s' : OptiMin ℝ)
    (hu : GoodUse m A d floor best lo hi c s0) (h : List String → ℕ) (k : CalcKind) (mus : List ℝ)
    (hd : mus.Nodup) (r : Raster)
    (hres : fastResults h c k (m.dataEnv A 1 floor d) (scanHypos m mus) [] s0 = .ok (s', r)) :
    List.Forall₂ (fun mu e => e.1 = [(m.pois 0, mu)] ∧ e.2.data.hypo = [(m.pois 0, mu)] ∧
      statIs e.2.data "tmu" (plr mu σ best) ∧ statIs e.2.data "tmu_A0" (plr mu σ 0)) mus r := by
  have hw : ∀ a ∈ scanHypos m mus, (Dict.keys a).Nodup := by
    intro a ha'
    obtain ⟨mu, _, rfl⟩ := List.mem_map.1 ha'
    simp [Dict.keys]
  have hpw : (scanHypos m mus).Pairwise (fun a b => ¬ SameHypo a b) := by
    unfold scanHypos
    rw [List.pairwise_map]
    refine hd.imp (fun {a b} hab hc => hab ?_)
    have := hc (m.pois 0)
    simpa [Dict.get?] using this
  have key := c58_each_alone h c k _ _ [] s0 s' r (goodUse_clean hu) hw hpw hres
  unfold scanHypos at key
  rw [List.forall₂_map_left_iff] at key
  refine key.imp ?_
  rintro mu e ⟨e1, s1, pd, a, b, hq, hn, _, _, e3, _, _, _, hcase⟩
  obtain ⟨p1, p2, p3⟩ := fastQ_plr hg ha hσ hp hu hq
  obtain ⟨rfl, rfl⟩ := PLRData.HasNlls.unique hn p3
  have hle : b ≤ b + ((mu - best) / σ) ^ 2 / 2 := by
    have := sq_nonneg ((mu - best) / σ)
    linarith
  have e4 := hcase hle
  exact ⟨e1, e3, by rw [e4]; exact p1, by rw [e4]; exact p2⟩

/-- The best-fit value stored for a hypothesis is on the right side of the tested value.  (What is stored
is the last value the optimiser looked at.) -/
def RightSide (m : Mdl 1 P) (best mu : ℝ) (e : Hypo × REntry) : Prop :=
  ∀ b, bestIs e.2.data (m.pois 0) b → (b < mu ↔ best < mu)

theorem qPv_qmu (mu σ x : ℝ) (hσ : 0 < σ) : qPv (qmuOf (plr mu σ x) x mu) 0 = probBelow mu σ x := by
  have h := c56_qmu_exact mu σ x none none hσ
  unfold QMu.asymptoticPv at h
  have hn : (QMu.init mu (plr mu σ x) x none none none).ncp = .ok 0 := by simp [QMu.ncp, QMu.init]
  rw [hn, bind_ok] at h
  have e := Except.ok.inj (ε := PyErr) h
  rw [← e, Option.getD_none]
  by_cases hx : x < mu <;> simp [qPv, ssqrt_eq, QMu.value, QMu.init, qmuOf, hx]

theorem qPv_clb (mu σ x : ℝ) (hσ : 0 < σ) (hmu : 0 < mu) :
    qPv (qmuOf (plr mu σ x) x mu) (max (plr mu σ 0) 0) = probBelow 0 σ x := by
  have h := (c56_qmu_cls_exact mu σ x hσ hmu (some (plr mu σ 0)) none (Or.inl rfl)).1
  unfold QMu.asymptoticClb QMu.asymptoticPv at h
  have hn : (QMu.init 0 (QMu.init mu (plr mu σ x) x none (some (plr mu σ 0)) none).tmu
      (QMu.init mu (plr mu σ x) x none (some (plr mu σ 0)) none).bestPoi
      (some (QMu.init mu (plr mu σ x) x none (some (plr mu σ 0)) none).compPoi)
      (QMu.init mu (plr mu σ x) x none (some (plr mu σ 0)) none).tmuAmu
      (QMu.init mu (plr mu σ x) x none (some (plr mu σ 0)) none).sigma).ncp = .ok (max (plr mu σ 0) 0) := by
    have h0 : ¬ plr mu σ 0 < 0 := not_lt.2 (sq_nonneg _)
    simp [QMu.ncp, QMu.init, hmu.ne', h0, max_eq_left (not_lt.1 h0)]
  rw [hn, bind_ok] at h
  have e := Except.ok.inj (ε := PyErr) h
  rw [← e, Option.getD_none]
  by_cases hx : x < mu <;> simp [qPv, ssqrt_eq, QMu.value, QMu.init, qmuOf, hx]

/-- C73: for a scan of positive values of the POI with the one-sided statistic, the p-value stored for each
value is the probability, when the POI has this value, of a best-fit value at or below the one observed;
CLb is the same probability when the POI is 0, and CLs is their ratio. -/
theorem c73_qmu_exact (m : Mdl 1 P) (A : Mdl.Arrays) (hg : GaussianModel m A) (ha : AffineYields m A)
    (d : Mdl.DataV P) (best σ const : ℝ) (hσ : 0 < σ) (hp : Parabola m A d best σ const)
    (floor : Option ℝ) (lo hi : ℝ) (c : CalcSetup) (s0 s' : OptiMin ℝ)
    (hu : GoodUse m A d floor best lo hi c s0) (h : List String → ℕ) (mus : List ℝ)
    (hd : mus.Nodup) (hpos : ∀ mu ∈ mus, 0 < mu) (r : Raster)
    (hres : fastResults h c .qmu (m.dataEnv A 1 floor d) (scanHypos m mus) [] s0 = .ok (s', r))
    (hside : List.Forall₂ (RightSide m best) mus r) :
    List.Forall₂ (fun mu e => e.1 = [(m.pois 0, mu)] ∧
      pvIs e.2.data "pv" (probBelow mu σ best) ∧ pvIs e.2.data "clb" (probBelow 0 σ best) ∧
      pvIs e.2.data "cls" (exactCls σ best mu)) mus r := by
  have h1 := c73_statistics m A hg ha d best σ const hσ hp floor lo hi c s0 s' hu h .qmu mus hd r hres
  have h2 := c58_qmu_values h c _ _ [] s0 s' r hres
  rw [List.forall₂_iff_get] at h1 hside ⊢
  obtain ⟨hl, h1⟩ := h1
  refine ⟨hl, fun i hi1 hi2 => ?_⟩
  obtain ⟨e1, e2, e3, e4⟩ := h1 i hi1 hi2
  obtain ⟨poi, test, b, t, A0, g1, g2, g3, g4, _, g6, g7, g8⟩ := h2 (r.get ⟨i, hi2⟩) (List.get_mem _ _)
  have hs := hside.2 i hi1 hi2
  have hmu := hpos (mus.get ⟨i, hi1⟩) (List.get_mem _ _)
  generalize mus.get ⟨i, hi1⟩ = mu at *
  generalize r.get ⟨i, hi2⟩ = e at *
  rw [e2] at g1
  simp only [List.head?_cons, Option.some.injEq, Prod.mk.injEq] at g1
  obtain ⟨rfl, rfl⟩ := g1
  unfold statIs at e3 e4 g3 g4
  rw [e3] at g3
  rw [e4] at g4
  obtain rfl := Option.some.inj g3
  obtain rfl := Option.some.inj g4
  have hq : qmuOf (plr mu σ best) b mu = qmuOf (plr mu σ best) best mu := by
    unfold qmuOf
    have := hs b g2
    by_cases hb : best < mu
    · rw [if_pos hb, if_pos (this.2 hb)]
    · rw [if_neg hb, if_neg (fun hc => hb (this.1 hc))]
  rw [hq, if_neg hmu.ne', qPv_clb _ _ _ hσ hmu, qPv_qmu _ _ _ hσ] at g8
  rw [hq, qPv_qmu _ _ _ hσ] at g6
  rw [hq, if_neg hmu.ne', qPv_clb _ _ _ hσ hmu] at g7
  exact ⟨e1, g6, g7, g8⟩

theorem qtPv_eq (q T A : ℝ) (hT : 0 < T) (h : q ≤ T) : qtPv q T A = qPv q A := by
  unfold qtPv qPv
  by_cases h1 : q < T
  · rw [if_pos h1]
  · rw [if_neg h1]
    have e : q = T := le_antisymm h (not_lt.1 h1)
    rw [e, tildeArg_at T hT, ssqrt_eq, signedSqrt_of_nonneg hT.le]

/-- C73 for the bounded one-sided statistic, when the best-fit value is not negative: the same values as
with the one-sided statistic.  (For negative best-fit values see `c56_qmutilda_default_negative`.) -/
theorem c73_qmutilda_exact (m : Mdl 1 P) (A : Mdl.Arrays) (hg : GaussianModel m A) (ha : AffineYields m A)
    (d : Mdl.DataV P) (best σ const : ℝ) (hσ : 0 < σ) (hb0 : 0 ≤ best) (hp : Parabola m A d best σ const)
    (floor : Option ℝ) (lo hi : ℝ) (c : CalcSetup) (s0 s' : OptiMin ℝ)
    (hu : GoodUse m A d floor best lo hi c s0) (h : List String → ℕ) (mus : List ℝ)
    (hd : mus.Nodup) (hpos : ∀ mu ∈ mus, 0 < mu) (r : Raster)
    (hres : fastResults h c .qmutilda (m.dataEnv A 1 floor d) (scanHypos m mus) [] s0 = .ok (s', r))
    (hside : List.Forall₂ (RightSide m best) mus r)
    (hside0 : ∀ e ∈ r, ∀ b, bestIs e.2.data (m.pois 0) b → 0 ≤ b) :
    List.Forall₂ (fun mu e => e.1 = [(m.pois 0, mu)] ∧
      pvIs e.2.data "pv" (probBelow mu σ best) ∧ pvIs e.2.data "clb" (probBelow 0 σ best) ∧
      pvIs e.2.data "cls" (exactCls σ best mu)) mus r := by
  have h1 := c73_statistics m A hg ha d best σ const hσ hp floor lo hi c s0 s' hu h .qmutilda mus hd r hres
  have h2 := c58_qmutilda_values h c _ _ [] s0 s' r hres
  rw [List.forall₂_iff_get] at h1 hside ⊢
  obtain ⟨hl, h1⟩ := h1
  refine ⟨hl, fun i hi1 hi2 => ?_⟩
  obtain ⟨e1, e2, e3, e4⟩ := h1 i hi1 hi2
  obtain ⟨poi, test, b, t, A0, g1, g2, g3, g4, _, _, g6, g7, g8⟩ := h2 (r.get ⟨i, hi2⟩) (List.get_mem _ _)
  have hs := hside.2 i hi1 hi2
  have hs0 := hside0 (r.get ⟨i, hi2⟩) (List.get_mem _ _)
  have hmu := hpos (mus.get ⟨i, hi1⟩) (List.get_mem _ _)
  generalize mus.get ⟨i, hi1⟩ = mu at *
  generalize r.get ⟨i, hi2⟩ = e at *
  rw [e2] at g1
  simp only [List.head?_cons, Option.some.injEq, Prod.mk.injEq] at g1
  obtain ⟨rfl, rfl⟩ := g1
  unfold statIs at e3 e4 g3 g4
  rw [e3] at g3
  rw [e4] at g4
  obtain rfl := Option.some.inj g3
  obtain rfl := Option.some.inj g4
  have hq : qmutOf (plr mu σ best) b mu = qmuOf (plr mu σ best) best mu := by
    unfold qmutOf qmuOf
    rw [if_neg (not_lt.2 (hs0 b g2))]
    have := hs b g2
    by_cases hb : best < mu
    · rw [if_pos hb, if_pos (this.2 hb)]
    · rw [if_neg hb, if_neg (fun hc => hb (this.1 hc))]
  have hT : 0 < plr mu σ 0 := by unfold plr; rw [sub_zero]; positivity
  have hm : max (plr mu σ 0) 0 = plr mu σ 0 := max_eq_left hT.le
  have hle : qmuOf (plr mu σ best) best mu ≤ plr mu σ 0 := by
    unfold qmuOf
    by_cases hb : best < mu
    · rw [if_pos hb]
      unfold plr
      rw [sub_zero]
      have h3 : (mu - best) / σ ≤ mu / σ := by
        apply div_le_div_of_nonneg_right _ hσ.le; linarith
      have h4 : 0 ≤ (mu - best) / σ := div_nonneg (by linarith) hσ.le
      exact pow_le_pow_left₀ h4 h3 2
    · rw [if_neg hb]
      have : 0 ≤ plr mu σ best := sq_nonneg _
      linarith
  have hclb := qPv_clb mu σ best hσ hmu
  rw [hm] at hclb g6 g7 g8
  rw [hq, if_neg hmu.ne', qtPv_eq _ _ _ hT hle, qtPv_eq _ _ _ hT hle, hclb, qPv_qmu _ _ _ hσ] at g8
  rw [hq, qtPv_eq _ _ _ hT hle, qPv_qmu _ _ _ hσ] at g6
  rw [hq, if_neg hmu.ne', qtPv_eq _ _ _ hT hle, hclb] at g7
  exact ⟨e1, g6, g7, g8⟩

/-- C73 for the two-sided statistic: the p-value stored for each value of the POI is the probability, when
the POI has this value, of a best-fit value at least as far from it as the one observed. -/
theorem c73_tmu_exact (m : Mdl 1 P) (A : Mdl.Arrays) (hg : GaussianModel m A) (ha : AffineYields m A)
    (d : Mdl.DataV P) (best σ const : ℝ) (hσ : 0 < σ) (hp : Parabola m A d best σ const)
    (floor : Option ℝ) (lo hi : ℝ) (c : CalcSetup) (s0 s' : OptiMin ℝ)
    (hu : GoodUse m A d floor best lo hi c s0) (h : List String → ℕ) (mus : List ℝ)
    (hd : mus.Nodup) (r : Raster)
    (hres : fastResults h c .tmu (m.dataEnv A 1 floor d) (scanHypos m mus) [] s0 = .ok (s', r)) :
    List.Forall₂ (fun mu e => e.1 = [(m.pois 0, mu)] ∧ pvIs e.2.data "pv" (probFar mu σ best)) mus r := by
  have h1 := c73_statistics m A hg ha d best σ const hσ hp floor lo hi c s0 s' hu h .tmu mus hd r hres
  have h2 := c58_tmu_values h c _ _ [] s0 s' r hres
  rw [List.forall₂_iff_get] at h1 ⊢
  obtain ⟨hl, h1⟩ := h1
  refine ⟨hl, fun i hi1 hi2 => ?_⟩
  obtain ⟨e1, e2, e3, e4⟩ := h1 i hi1 hi2
  obtain ⟨t, g1, g2⟩ := h2 (r.get ⟨i, hi2⟩) (List.get_mem _ _)
  generalize mus.get ⟨i, hi1⟩ = mu at *
  generalize r.get ⟨i, hi2⟩ = e at *
  unfold statIs at e3 g1
  rw [e3] at g1
  obtain rfl := Option.some.inj g1
  rw [e2] at g2
  have := c56_tmu_exact mu σ best hσ
  simp only [TMu.asymptoticPv] at this
  refine ⟨e1, ?_⟩
  rw [← this]
  exact g2

theorem exactCls_eq (σ best mu : ℝ) (hσ : 0 < σ) :
    exactCls σ best mu = normSf ((mu - best) / σ) / normSf ((0 - best) / σ) := by
  unfold exactCls
  rw [probBelow_eq _ _ _ hσ, probBelow_eq _ _ _ hσ]

theorem exactCls_pos (σ best mu : ℝ) (hσ : 0 < σ) : 0 < exactCls σ best mu := by
  rw [exactCls_eq _ _ _ hσ]
  exact div_pos (normSf_pos _) (normSf_pos _)

theorem exactCls_anti (σ best : ℝ) (hσ : 0 < σ) : StrictAnti (exactCls σ best) := by
  intro a b hab
  rw [exactCls_eq _ _ _ hσ, exactCls_eq _ _ _ hσ]
  refine div_lt_div_of_pos_right (normSf_strictAnti ?_) (normSf_pos _)
  exact div_lt_div_of_pos_right (by linarith) hσ

theorem exactCls_cont (σ best : ℝ) (hσ : 0 < σ) : Continuous (exactCls σ best) := by
  have : exactCls σ best = fun mu => normSf ((mu - best) / σ) / normSf ((0 - best) / σ) :=
    funext (fun mu => exactCls_eq σ best mu hσ)
  rw [this]
  exact (normSf_continuous.comp (by fun_prop)).div_const _

/-- C73: the exact CLs is 1 at 0 and decreases strictly; for each level there is exactly one limit, and it
is positive. -/
theorem c73_exact_limit (σ best level : ℝ) (hσ : 0 < σ) (h0 : 0 < level) (h1 : level < 1) :
    exactCls σ best 0 = 1 ∧ (∀ mu mu', mu < mu' → exactCls σ best mu' < exactCls σ best mu) ∧
    ∃ mu, 0 < mu ∧ ∀ mu', exactCls σ best mu' = level ↔ mu' = mu := by
  have hz : exactCls σ best 0 = 1 := by
    unfold exactCls
    refine div_self (ne_of_gt ?_)
    rw [probBelow_eq _ _ _ hσ]; exact normSf_pos _
  refine ⟨hz, fun mu mu' h => exactCls_anti σ best hσ h, ?_⟩
  have hp := normSf_pos ((0 - best) / σ)
  have hlt : level * normSf ((0 - best) / σ) < 1 := by
    have := normSf_lt_one ((0 - best) / σ)
    nlinarith
  obtain ⟨y, hy⟩ := normSf_surj (level * normSf ((0 - best) / σ)) (mul_pos h0 hp) hlt
  have he : exactCls σ best (best + σ * y) = level := by
    rw [exactCls_eq _ _ _ hσ, add_sub_cancel_left, mul_div_cancel_left₀ _ hσ.ne', hy,
      mul_div_cancel_right₀ _ hp.ne']
  refine ⟨best + σ * y, ?_, fun mu' => ⟨fun h => ?_, fun h => by rw [h, he]⟩⟩
  · by_contra hc
    have := (exactCls_anti σ best hσ).antitone (not_lt.1 hc)
    rw [hz, he] at this
    linarith
  · exact (exactCls_anti σ best hσ).injective (h.trans he.symm)

/-- The points of the scan: values of the POI and exact CLs. -/
noncomputable def exactPoints (σ best : ℝ) (mus : List ℝ) : List (ℝ × ℝ) :=
  mus.map (fun mu => (mu, exactCls σ best mu))

theorem exactPoints_positive (σ best : ℝ) (hσ : 0 < σ) (mus : List ℝ) :
    positive (exactPoints σ best mus) = exactPoints σ best mus := by
  unfold positive exactPoints
  rw [List.filter_eq_self]
  intro p hp
  obtain ⟨mu, _, rfl⟩ := List.mem_map.1 hp
  simpa using exactCls_pos σ best mu hσ

theorem exactPoints_fst (σ best : ℝ) (mus : List ℝ) : (exactPoints σ best mus).map Prod.fst = mus := by
  simp [exactPoints, Function.comp_def]

theorem pointsAre_cls {n : String} {σ best : ℝ} {mus : List ℝ} {r : Raster}
    (h : List.Forall₂ (fun mu e => e.1 = [(n, mu)] ∧
      pvIs e.2.data "cls" (exactCls σ best mu)) mus r) :
    PointsAre "cls" n 0 (SRaster.ofRaster r) (exactPoints σ best mus) := by
  unfold PointsAre SRaster.ofRaster exactPoints
  rw [List.forall₂_map_left_iff, List.forall₂_map_right_iff]
  refine List.Forall₂.flip (h.imp ?_)
  rintro mu e ⟨h1, h2⟩
  refine ⟨by rw [h1]; simp [Dict.get?], ?_⟩
  unfold pvIs at h2
  have h3 : Dict.get? (e.2.data.pvs.map (fun kv => (kv.1, SVal.num kv.2))) "cls" =
      some (.num (exactCls σ best mu)) := by
    have := Dict.get?_map (fun _ v => SVal.num v) e.2.data.pvs "cls"
    rw [h2] at this
    exact this
  unfold Scan.value
  simp only
  rw [h3]
  simp

/-- C73: the 95% CLs limit that the scan reports and the exact one are not separated by any of the scanned
values, if the range of the scanned values contains the exact limit and the curve through the CLs values
crosses 5% only once. -/
theorem c73_limit (m : Mdl 1 P) (A : Mdl.Arrays) (hg : GaussianModel m A) (ha : AffineYields m A)
    (d : Mdl.DataV P) (best σ const : ℝ) (hσ : 0 < σ) (hp : Parabola m A d best σ const)
    (floor : Option ℝ) (lo hi : ℝ) (c : CalcSetup) (s0 s' : OptiMin ℝ)
    (hu : GoodUse m A d floor best lo hi c s0) (h : List String → ℕ) (mus : List ℝ)
    (hd : mus.Pairwise (· < ·)) (h4 : 4 ≤ mus.length) (hpos : ∀ mu ∈ mus, 0 < mu) (r : Raster)
    (hres : fastResults h c .qmu (m.dataEnv A 1 floor d) (scanHypos m mus) [] s0 = .ok (s', r))
    (hside : List.Forall₂ (RightSide m best) mus r)
    (exact : ℝ) (hexact : exactCls σ best exact = 1 - 95/100)
    (hrange : (∃ a ∈ mus, a ≤ exact) ∧ ∃ b ∈ mus, exact ≤ b)
    (L : SplineLib) (hL : L.Correct)
    (hone : ∀ y z, Between (exactPoints σ best mus) y → Between (exactPoints σ best mus) z →
      logCurve L (exactPoints σ best mus) (1 - 95/100) y = 1 - 95/100 →
      logCurve L (exactPoints σ best mus) (1 - 95/100) z = 1 - 95/100 → y = z) :
    ∃ x, Scan.limit L "cls" (m.pois 0) (SRaster.ofRaster r) = .ok (some x) ∧
      ∀ g ∈ mus, ¬ (x < g ∧ g < exact) ∧ ¬ (exact < g ∧ g < x) := by
  have hq := c73_qmu_exact m A hg ha d best σ const hσ hp floor lo hi c s0 s' hu h mus
    (hd.imp ne_of_lt) hpos r hres hside
  have hpts := pointsAre_cls (hq.imp (fun _ _ h => ⟨h.1, h.2.2.2⟩))
  have hposi := exactPoints_positive σ best hσ mus
  have hinc : ((positive (exactPoints σ best mus)).map Prod.fst).Pairwise (· < ·) := by
    rw [hposi, exactPoints_fst]; exact hd
  have hlen : 4 ≤ (positive (exactPoints σ best mus)).length := by
    rw [hposi]; simpa [exactPoints] using h4
  obtain ⟨c1, c2, c3⟩ := c54_limit_is_crossing L hL "cls" (m.pois 0) _ _ hpts hlen hinc
  obtain ⟨⟨a, ha1, ha2⟩, b, hb1, hb2⟩ := hrange
  have hmem : ∀ g ∈ mus, (g, exactCls σ best g) ∈ exactPoints σ best mus :=
    fun g hg' => List.mem_map.2 ⟨g, hg', rfl⟩
  have hcv : ∀ g ∈ mus, logCurve L (exactPoints σ best mus) (1 - 95/100) g = exactCls σ best g :=
    fun g hg' => c1 _ (hmem g hg') (exactCls_pos σ best g hσ)
  have hanti := exactCls_anti σ best hσ
  have ha3 : 1 - 95/100 ≤ exactCls σ best a := by rw [← hexact]; exact hanti.antitone ha2
  have hb3 : exactCls σ best b ≤ 1 - 95/100 := by rw [← hexact]; exact hanti.antitone hb2
  have hfin : {y | Between (positive (exactPoints σ best mus)) y ∧
      logCurve L (exactPoints σ best mus) (1 - 95/100) y = 1 - 95/100}.Finite := by
    refine Set.Subsingleton.finite ?_
    rintro y ⟨hy1, hy2⟩ z ⟨hz1, hz2⟩
    rw [hposi] at hy1 hz1
    exact hone y z hy1 hz1 hy2 hz2
  obtain ⟨x, hx⟩ := c54_limit_found L hL "cls" (m.pois 0) _ _ hpts hlen hinc hfin
    (a, exactCls σ best a) (b, exactCls σ best b) (hmem a ha1) (hmem b hb1) ha3 hb3 (exactCls_pos σ best b hσ)
  refine ⟨x, hx, fun g hgm => ⟨?_, ?_⟩⟩
  · rintro ⟨hxg, hgm'⟩
    obtain ⟨hx1, hx2, _⟩ := c3 x hx
    have h5 : 1 - 95/100 ≤ exactCls σ best g := by rw [← hexact]; exact (hanti hgm').le
    have hgb : g ≤ b := by linarith
    obtain ⟨y, hy1, hy2⟩ := intermediate_value_Icc' hgb c2.continuousOn
      (show (1 - 95/100 : ℝ) ∈ Set.Icc (logCurve L (exactPoints σ best mus) (1 - 95/100) b)
        (logCurve L (exactPoints σ best mus) (1 - 95/100) g) by
        rw [hcv b hb1, hcv g hgm]; exact ⟨hb3, h5⟩)
    have := hone x y hx1 ⟨⟨_, hmem g hgm, hy1.1⟩, _, hmem b hb1, hy1.2⟩ hx2 hy2
    have := hy1.1
    linarith
  · rintro ⟨hxg, hgm'⟩
    obtain ⟨hx1, hx2, _⟩ := c3 x hx
    have h5 : exactCls σ best g ≤ 1 - 95/100 := by rw [← hexact]; exact (hanti hxg).le
    have hgb : a ≤ g := by linarith
    obtain ⟨y, hy1, hy2⟩ := intermediate_value_Icc' hgb c2.continuousOn
      (show (1 - 95/100 : ℝ) ∈ Set.Icc (logCurve L (exactPoints σ best mus) (1 - 95/100) g)
        (logCurve L (exactPoints σ best mus) (1 - 95/100) a) by
        rw [hcv a ha1, hcv g hgm]; exact ⟨h5, ha3⟩)
    have := hone x y hx1 ⟨⟨_, hmem a ha1, hy1.1⟩, _, hmem g hgm, hy1.2⟩ hx2 hy2
    have := hy1.2
    linarith

end Verif.Props
