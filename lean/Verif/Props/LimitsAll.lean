import Verif.Lemmas.LimitsTotal
import Verif.Lemmas.DemoAffine
import Verif.Lemmas.PiecewiseLinear
/-!
# C73: the scan succeeds, and what it stores
-/
namespace Verif.Props
open Verif.Spec Verif.Lim
variable {P : Nat}

theorem scanHypos_wf (m : Mdl 1 P) (mus : List ℝ) : ∀ a ∈ scanHypos m mus, (Dict.keys a).Nodup := by
  intro a ha'
  obtain ⟨mu, _, rfl⟩ := List.mem_map.1 ha'
  simp [Dict.keys]

theorem scanHypos_distinct (m : Mdl 1 P) (mus : List ℝ) (hd : mus.Nodup) :
    (scanHypos m mus).Pairwise (fun a b => ¬ SameHypo a b) := by
  unfold scanHypos
  rw [List.pairwise_map]
  refine hd.imp (fun {a b} hab hc => hab ?_)
  have := hc (m.pois 0)
  simpa [Dict.get?] using this

theorem bestIs_unique {d : PLRData} {n : String} {a b : ℝ} (h : bestIs d n a) (h' : bestIs d n b) : a = b := by
  obtain ⟨f, p, e1, e2, e3⟩ := h
  obtain ⟨f', p', e1', e2', e3'⟩ := h'
  rw [e1] at e1'
  obtain rfl := Option.some.inj e1'
  rw [e2] at e2'
  obtain rfl := Option.some.inj e2'
  rw [e3] at e3'
  exact Option.some.inj e3'

/-- C73: a scan of positive values of the POI of a Gaussian model succeeds, with each of the calculators,
and stores the best-fit value, if the last point the optimiser looks at is the one it reports. -/
theorem c73_succeeds (m : Mdl 1 P) (A : Mdl.Arrays) (hg : GaussianModel m A) (ha : AffineYields m A)
    (hname : ∀ p, (m.nps p).name ≠ m.pois 0) (d : Mdl.DataV P) (best σ const : ℝ) (hσ : 0 < σ)
    (hp : Parabola m A d best σ const) (floor : Option ℝ) (lo hi : ℝ) (c : CalcSetup) (s0 : OptiMin ℝ)
    (hu : GoodUse m A d floor best lo hi c s0) (hend : EndsAtResult c.opt) (hm : KnownMethod s0.method)
    (h : List String → ℕ) (k : CalcKind) (mus : List ℝ) (hd : mus.Nodup) (hpos : ∀ mu ∈ mus, 0 < mu) :
    ∃ s' r, fastResults h c k (m.dataEnv A 1 floor d) (scanHypos m mus) [] s0 = .ok (s', r) ∧
      List.Forall₂ (fun mu e => e.1 = [(m.pois 0, mu)] ∧ bestIs e.2.data (m.pois 0) best) mus r := by
  have hR := CleanUse.reusable (goodUse_clean hu)
  have hal : Alike c.pois s0 s0 := ⟨rfl, hu.noAlt, hu.noAlt, hu.noRebound, hu.noRebound, rfl⟩
  have hq : ∀ mu ∈ mus, ∃ s1 pd, fastQ c k (m.dataEnv A 1 floor d) [(m.pois 0, mu)] none s0 = .ok (s1, pd) ∧
      bestIs pd (m.pois 0) best := fun mu hmu => q_total hg ha hname hσ hp hu hend hm k (hpos mu hmu)
  obtain ⟨s1, r1, h1⟩ := loop_total h c hu.evaluates k (m.dataEnv A 1 floor d) (scanHypos m mus) s0 s0 [] hR hR hal
    (fun hy hhy => by
      obtain ⟨mu, hmu, rfl⟩ := List.mem_map.1 hhy
      obtain ⟨a, b, e, _⟩ := hq mu hmu
      exact ⟨a, b, e⟩)
  obtain ⟨l, hl, hf⟩ := fastLoop_spec h c hu.evaluates k _ [] _ s0 s0 s1 [] r1 hR hR hal
    (distinct_not_matches h (scanHypos_wf m mus) (scanHypos_distinct m mus hd)) (by simp) h1
  rw [List.nil_append] at hl
  subst hl
  have hfact : ∀ e ∈ r1, ∃ mu a b, e.1 = [(m.pois 0, mu)] ∧ FitNlls e.2.data a b ∧
      tmuIs e.2.data (2 * (a - b)) ∧ fillPv k e.2.data = .ok e.2.data := by
    intro e he
    obtain ⟨hy, hhy, e1, _, t, hqe⟩ := forall2_exists_left hf e he
    obtain ⟨mu, hmu, rfl⟩ := List.mem_map.1 hhy
    have hn : HDict.get? h ([] : HDict (Pars ℝ)) [(m.pois 0, mu)] = none := rfl
    rw [hn] at hqe
    obtain ⟨p1, p2, p3⟩ := fastQ_plr hg ha hσ hp hu hqe
    obtain ⟨a, b, k1, k2, _, k4⟩ := fastQ_facts _ k _ _ _ _ _ _ hu.noAlt hu.noRebound hqe
    obtain ⟨rfl, rfl⟩ := PLRData.HasNlls.unique k1 p3
    rw [max_eq_right (by have := sq_nonneg ((mu - best) / σ); linarith)] at k2
    exact ⟨mu, _, _, e1, k1, k2, k4⟩
  obtain ⟨r2, h2⟩ := init_succeeds h c.m r1 (fun e he => by
      obtain ⟨_, a, b, _, k1, _⟩ := hfact e he; exact ⟨a, b, k1⟩) (fun e he => by
      obtain ⟨mu, a, b, e1, _⟩ := hfact e he
      rw [e1]; simp [Hypo.WF, Dict.keys]) (fun e he => by
      obtain ⟨mu, a, b, e1, _⟩ := hfact e he
      rw [e1, hu.calculator.model]; simp [Dict.keys, Mdl.parModel, List.ofFn_succ])
  obtain ⟨r3, h3⟩ := fillAll_succeeds k r2 (fun e he => by
    obtain ⟨x, hx, _, a, b, k1, k2⟩ := forall2_exists_left (Raster.init_spec h2) e he
    obtain ⟨_, a', b', _, k3, k4, k5⟩ := hfact x hx
    obtain ⟨rfl, rfl⟩ := PLRData.HasNlls.unique k1 k3
    rw [Dict.set_same _ _ _ k4] at k2
    exact ⟨_, by rw [k2]; exact k5⟩)
  have hres : fastResults h c k (m.dataEnv A 1 floor d) (scanHypos m mus) [] s0 = .ok (s1, r3) := by
    unfold fastResults
    rw [h1, bind_ok]; simp only
    rw [h2, bind_ok, h3, bind_ok]; rfl
  refine ⟨s1, r3, hres, ?_⟩
  have key := c58_each_alone h c k _ _ [] s0 s1 r3 (goodUse_clean hu) (scanHypos_wf m mus)
    (scanHypos_distinct m mus hd) hres
  unfold scanHypos at key
  rw [List.forall₂_map_left_iff] at key
  rw [List.forall₂_iff_get] at key ⊢
  refine ⟨key.1, fun i hi1 hi2 => ?_⟩
  obtain ⟨e1, s2, pd, a, b, hqq, _, _, _, _, hff, _⟩ := key.2 i hi1 hi2
  obtain ⟨s3, pd', hq', hb⟩ := hq (mus.get ⟨i, hi1⟩) (List.get_mem _ _)
  have e2 := hqq.symm.trans hq'
  have e3 := congrArg Prod.snd (Except.ok.inj (ε := PyErr) e2)
  simp only at e3
  subst e3
  refine ⟨e1, ?_⟩
  obtain ⟨f, p, g1, g2, g3⟩ := hb
  exact ⟨f, p, by rw [hff]; exact g1, g2, g3⟩

theorem rightSide_of_best (m : Mdl 1 P) {best : ℝ} {mus : List ℝ} {r : Raster}
    (h : List.Forall₂ (fun mu e => e.1 = [(m.pois 0, mu)] ∧ bestIs e.2.data (m.pois 0) best) mus r) :
    List.Forall₂ (RightSide m best) mus r := by
  refine h.imp ?_
  rintro mu e ⟨_, hb⟩ b hb'
  rw [bestIs_unique hb hb']

/-- C73, from the model and the data to the p-values: the scan with the one-sided statistic succeeds and
stores, for each value of the POI, the exact probabilities of the Gaussian measurement. -/
theorem c73_scan_qmu (m : Mdl 1 P) (A : Mdl.Arrays) (hg : GaussianModel m A) (ha : AffineYields m A)
    (hname : ∀ p, (m.nps p).name ≠ m.pois 0) (d : Mdl.DataV P) (best σ const : ℝ) (hσ : 0 < σ)
    (hp : Parabola m A d best σ const) (floor : Option ℝ) (lo hi : ℝ) (c : CalcSetup) (s0 : OptiMin ℝ)
    (hu : GoodUse m A d floor best lo hi c s0) (hend : EndsAtResult c.opt) (hm : KnownMethod s0.method)
    (h : List String → ℕ) (mus : List ℝ) (hd : mus.Nodup) (hpos : ∀ mu ∈ mus, 0 < mu) :
    ∃ s' r, fastResults h c .qmu (m.dataEnv A 1 floor d) (scanHypos m mus) [] s0 = .ok (s', r) ∧
      List.Forall₂ (fun mu e => e.1 = [(m.pois 0, mu)] ∧
        pvIs e.2.data "pv" (probBelow mu σ best) ∧ pvIs e.2.data "clb" (probBelow 0 σ best) ∧
        pvIs e.2.data "cls" (exactCls σ best mu)) mus r := by
  obtain ⟨s', r, hres, hb⟩ := c73_succeeds m A hg ha hname d best σ const hσ hp floor lo hi c s0 hu hend hm h .qmu
    mus hd hpos
  exact ⟨s', r, hres, c73_qmu_exact m A hg ha d best σ const hσ hp floor lo hi c s0 s' hu h mus hd hpos r hres
    (rightSide_of_best m hb)⟩

/-- C73, the same with the bounded one-sided statistic, when the best-fit value is not negative. -/
theorem c73_scan_qmutilda (m : Mdl 1 P) (A : Mdl.Arrays) (hg : GaussianModel m A) (ha : AffineYields m A)
    (hname : ∀ p, (m.nps p).name ≠ m.pois 0) (d : Mdl.DataV P) (best σ const : ℝ) (hσ : 0 < σ) (hb0 : 0 ≤ best)
    (hp : Parabola m A d best σ const) (floor : Option ℝ) (lo hi : ℝ) (c : CalcSetup) (s0 : OptiMin ℝ)
    (hu : GoodUse m A d floor best lo hi c s0) (hend : EndsAtResult c.opt) (hm : KnownMethod s0.method)
    (h : List String → ℕ) (mus : List ℝ) (hd : mus.Nodup) (hpos : ∀ mu ∈ mus, 0 < mu) :
    ∃ s' r, fastResults h c .qmutilda (m.dataEnv A 1 floor d) (scanHypos m mus) [] s0 = .ok (s', r) ∧
      List.Forall₂ (fun mu e => e.1 = [(m.pois 0, mu)] ∧
        pvIs e.2.data "pv" (probBelow mu σ best) ∧ pvIs e.2.data "clb" (probBelow 0 σ best) ∧
        pvIs e.2.data "cls" (exactCls σ best mu)) mus r := by
  obtain ⟨s', r, hres, hb⟩ := c73_succeeds m A hg ha hname d best σ const hσ hp floor lo hi c s0 hu hend hm h
    .qmutilda mus hd hpos
  refine ⟨s', r, hres, c73_qmutilda_exact m A hg ha d best σ const hσ hb0 hp floor lo hi c s0 s' hu h mus hd hpos r
    hres (rightSide_of_best m hb) ?_⟩
  intro e he b hbe
  obtain ⟨mu, _, _, hb'⟩ := forall2_exists_left hb e he
  rw [← bestIs_unique hb' hbe]; exact hb0

/-- C73, from the model and the data to the limit: the scan succeeds, and the 95% CLs limit it reports is
in the same interval between scanned values as the exact one. -/
theorem c73_scan_limit (m : Mdl 1 P) (A : Mdl.Arrays) (hg : GaussianModel m A) (ha : AffineYields m A)
    (hname : ∀ p, (m.nps p).name ≠ m.pois 0) (d : Mdl.DataV P) (best σ const : ℝ) (hσ : 0 < σ)
    (hp : Parabola m A d best σ const) (floor : Option ℝ) (lo hi : ℝ) (c : CalcSetup) (s0 : OptiMin ℝ)
    (hu : GoodUse m A d floor best lo hi c s0) (hend : EndsAtResult c.opt) (hm : KnownMethod s0.method)
    (h : List String → ℕ) (mus : List ℝ)
    (hd : mus.Pairwise (· < ·)) (h4 : 4 ≤ mus.length) (hpos : ∀ mu ∈ mus, 0 < mu)
    (exact : ℝ) (hexact : exactCls σ best exact = 1 - 95/100)
    (hrange : (∃ a ∈ mus, a ≤ exact) ∧ ∃ b ∈ mus, exact ≤ b)
    (L : SplineLib) (hL : L.Correct)
    (hone : ∀ y z, Between (exactPoints σ best mus) y → Between (exactPoints σ best mus) z →
      logCurve L (exactPoints σ best mus) (1 - 95/100) y = 1 - 95/100 →
      logCurve L (exactPoints σ best mus) (1 - 95/100) z = 1 - 95/100 → y = z) :
    ∃ s' r x, fastResults h c .qmu (m.dataEnv A 1 floor d) (scanHypos m mus) [] s0 = .ok (s', r) ∧
      Scan.limit L "cls" (m.pois 0) (SRaster.ofRaster r) = .ok (some x) ∧
      ∀ g ∈ mus, ¬ (x < g ∧ g < exact) ∧ ¬ (exact < g ∧ g < x) := by
  have hnd : mus.Nodup := hd.imp (fun h => h.ne)
  obtain ⟨s', r, hres, hb⟩ := c73_succeeds m A hg ha hname d best σ const hσ hp floor lo hi c s0 hu hend hm h .qmu
    mus hnd hpos
  obtain ⟨x, hx⟩ := c73_limit m A hg ha d best σ const hσ hp floor lo hi c s0 s' hu h mus hd h4 hpos r hres
    (rightSide_of_best m hb) exact hexact hrange L hL hone
  exact ⟨s', r, x, hres, hx⟩

/-! ## Non-vacuity -/

/-- The calculator and the minimiser of the examples. -/
noncomputable def sbCalc (lo hi : ℝ) : CalcSetup :=
  ⟨straightOpt, Demo.sb.parModel, [⟨Demo.sb.pois 0, some lo, some hi⟩], ⟨[0], List.replicate 1 0⟩⟩

/-- The conditions of the theorems above are met by a model with signal and background, for every dataset,
in every range of the POI that contains the best-fit value and 0. -/
theorem sb_use (d : Mdl.DataV 1) : ∃ A, Demo.sb.setInternal = .ok A ∧ GaussianModel Demo.sb A ∧
    AffineYields Demo.sb A ∧ (∀ p, (Demo.sb.nps p).name ≠ Demo.sb.pois 0) ∧
    ∃ best σ const, 0 < σ ∧ Parabola Demo.sb A d best σ const ∧ ∀ lo hi, lo < hi → lo ≤ best → best ≤ hi →
      lo ≤ 0 → 0 ≤ hi → ∀ floor, GoodUse Demo.sb A d floor best lo hi (sbCalc lo hi)
        { method := "scalar", tmuDebug := 0 } ∧ EndsAtResult (sbCalc lo hi).opt ∧ KnownMethod "scalar" := by
  obtain ⟨A, hA, h0, h1⟩ := Demo.sb_internal
  have hg := Demo.sb_gaussian h0 h1
  have ha := Demo.sb_affine h0 h1
  obtain ⟨σ, hσ, hd, _⟩ := c73_gaussian_measurement Demo.sb A hg ha
  obtain ⟨best, const, hp⟩ := hd d
  refine ⟨A, hA, hg, ha, ?_, best, σ, const, hσ, hp, ?_⟩
  · intro p
    have : p = 0 := Subsingleton.elim _ _
    subst this
    simp [Demo.sb]
  · intro lo hi hlh k1 k2 k3 k4 floor
    exact ⟨goodUse_exists hg ha hp hlh k1 k2 k3 k4 floor, straight_ends, by simp [KnownMethod]⟩

/-- `c73_scan_qmu` and the theorems it rests on, for this model and any dataset. -/
example (d : Mdl.DataV 1) : ∃ A best σ c s' r, 0 < σ ∧ Demo.sb.setInternal = .ok A ∧
    fastResults (fun _ => 0) c .qmu (Demo.sb.dataEnv A 1 none d) (scanHypos Demo.sb [1, 2, 3]) []
      { method := "scalar", tmuDebug := 0 } = .ok (s', r) ∧
    List.Forall₂ (fun mu e => e.1 = [("mu", mu)] ∧ pvIs e.2.data "cls" (exactCls σ best mu)) [1, 2, 3] r := by
  obtain ⟨A, hA, hg, ha, hn, best, σ, const, hσ, hp, hu⟩ := sb_use d
  obtain ⟨u1, u2, u3⟩ := hu (-(|best| + 1)) (|best| + 1) (by linarith [abs_nonneg best])
    (by linarith [neg_abs_le best]) (by linarith [le_abs_self best]) (by linarith [abs_nonneg best])
    (by linarith [abs_nonneg best]) none
  obtain ⟨s', r, e1, e2⟩ := c73_scan_qmu Demo.sb A hg ha hn d best σ const hσ hp none _ _ _ _ u1 u2 u3 (fun _ => 0)
    [1, 2, 3] (by norm_num) (by norm_num)
  exact ⟨A, best, σ, _, s', r, hσ, hA, e1, e2.imp (fun _ _ h => ⟨h.1, h.2.2.2⟩)⟩

/-- The hypotheses of `c73_scan_limit` are met, with an interpolation that decreases when the points do. -/
example (d : Mdl.DataV 1) : ∃ A σ best c s' r e x, Demo.sb.setInternal = .ok A ∧ 0 < σ ∧
    exactCls σ best e = 1 - 95/100 ∧
    fastResults (fun _ => 0) c .qmu (Demo.sb.dataEnv A 1 none d) (scanHypos Demo.sb [e / 2, e, 2 * e, 3 * e]) []
      { method := "scalar", tmuDebug := 0 } = .ok (s', r) ∧
    Scan.limit Pwl.lib "cls" "mu" (SRaster.ofRaster r) = .ok (some x) ∧ e / 2 ≤ x ∧ x ≤ 2 * e := by
  obtain ⟨A, hA, hg, ha, hn, best, σ, const, hσ, hp, hu⟩ := sb_use d
  obtain ⟨u1, u2, u3⟩ := hu (-(|best| + 1)) (|best| + 1) (by linarith [abs_nonneg best])
    (by linarith [neg_abs_le best]) (by linarith [le_abs_self best]) (by linarith [abs_nonneg best])
    (by linarith [abs_nonneg best]) none
  obtain ⟨_, _, e, he, hlim⟩ := c73_exact_limit σ best (1 - 95/100) hσ (by norm_num) (by norm_num)
  have hee := (hlim e).2 rfl
  have hd : [e / 2, e, 2 * e, 3 * e].Pairwise (· < ·) := by
    simp only [List.pairwise_cons, List.mem_cons, List.not_mem_nil, or_false, forall_eq_or_imp, forall_eq,
      false_implies, implies_true, List.Pairwise.nil, and_true]
    refine ⟨⟨?_, ?_, ?_⟩, ⟨?_, ?_⟩, ?_⟩ <;> linarith
  have hone : ∀ y z, logCurve Pwl.lib (exactPoints σ best [e / 2, e, 2 * e, 3 * e]) (1 - 95/100) y = 1 - 95/100 →
      logCurve Pwl.lib (exactPoints σ best [e / 2, e, 2 * e, 3 * e]) (1 - 95/100) z = 1 - 95/100 → y = z := by
    intro y z hy hz
    unfold logCurve at hy hz
    rw [exactPoints_positive σ best hσ] at hy hz
    have hs := Pwl.curve_anti ((exactPoints σ best [e / 2, e, 2 * e, 3 * e]).map
      (fun p => (p.1, Real.log (p.2 / (1 - 95/100))))) (by
        simp only [List.map_map]
        rw [show (Prod.fst ∘ fun p : ℝ × ℝ => (p.1, Real.log (p.2 / (1 - 95/100)))) = Prod.fst from rfl,
          exactPoints_fst]
        exact hd) (by
        unfold exactPoints
        rw [List.map_map, List.map_map]
        rw [List.pairwise_map]
        refine hd.imp (fun {a b} hab => ?_)
        refine Real.log_lt_log (div_pos (exactCls_pos σ best _ hσ) (by norm_num)) ?_
        exact div_lt_div_of_pos_right (exactCls_anti σ best hσ hab) (by norm_num)) (by simp [exactPoints])
    simp only [List.map_map] at hs
    rw [show (Prod.fst ∘ fun p : ℝ × ℝ => (p.1, Real.log (p.2 / (1 - 95/100)))) = Prod.fst from rfl,
      show (Prod.snd ∘ fun p : ℝ × ℝ => (p.1, Real.log (p.2 / (1 - 95/100)))) =
        fun p => Real.log (p.2 / (1 - 95/100)) from rfl] at hs
    have h20 : (1 - 95/100 : ℝ) ≠ 0 := by norm_num
    have e1 := mul_left_cancel₀ h20 (hy.trans hz.symm)
    exact hs.injective (Real.exp_injective e1)
  obtain ⟨s', r, x, e1, e2, e3⟩ := c73_scan_limit Demo.sb A hg ha hn d best σ const hσ hp none _ _ _ _ u1 u2 u3
    (fun _ => 0) [e / 2, e, 2 * e, 3 * e] hd (by simp) (by
      simp only [List.mem_cons, List.not_mem_nil, or_false, forall_eq_or_imp, forall_eq]
      refine ⟨?_, ?_, ?_, ?_⟩ <;> linarith) e hee ⟨⟨e, by simp, le_refl _⟩, e, by simp, le_refl _⟩
    Pwl.lib Pwl.correct (fun y z _ _ => hone y z)
  refine ⟨A, σ, best, _, s', r, e, x, hA, hσ, hee, e1, e2, ?_, ?_⟩
  · by_contra hc
    exact (e3 (e / 2) (by simp)).1 ⟨not_le.1 hc, by linarith⟩
  · by_contra hc
    exact (e3 (2 * e) (by simp)).2 ⟨by linarith, not_le.1 hc⟩

end Verif.Props
