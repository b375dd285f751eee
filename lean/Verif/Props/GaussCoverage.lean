import Verif.Lemmas.GaussLaw
import Verif.Lemmas.Toys
import Verif.Props.LimitsAll
/-!
# C89: over repeated measurements, the uncertainties and limits of a Gaussian model mean what they say
-/
namespace Verif.Props
open Verif Verif.Spec Verif.Lim Verif.Toys MeasureTheory ProbabilityTheory
variable {P : Nat} {Ω : Type} [MeasurableSpace Ω] {Pr : Measure Ω}

/-- `r` is what a calculator of this kind stores for the dataset `d` and the values `mus` of the POI (with a
range of the POI that contains the best-fit value, and an optimiser that finds the minima). -/
def Analysed (m : Mdl 1 P) (A : Mdl.Arrays) (floor : Option ℝ) (k : CalcKind) (mus : List ℝ)
    (d : Mdl.DataV P) (best : ℝ) (r : Raster) : Prop :=
  ∃ lo hi c s0 s' h, GoodUse m A d floor best lo hi c s0 ∧ EndsAtResult c.opt ∧ KnownMethod s0.method ∧
    fastResults h c k (m.dataEnv A 1 floor d) (scanHypos m mus) [] s0 = .ok (s', r)

/-- The value `v` is stored under `key` for the value `x` of the POI. -/
def StoredAs (m : Mdl 1 P) (r : Raster) (x : ℝ) (key : String) (v : ℝ) : Prop :=
  ∃ e ∈ r, e.1 = [(m.pois 0, x)] ∧ pvIs e.2.data key v

/-! ### The best-fit value -/

/-- C89: for datasets that follow the likelihood at any values of the POI and the NPs, the best-fit value of
the POI is normal around the true value with the uncertainty of the likelihood as standard deviation: it is
unbiased, and its variance is the one that the curvature of the profiled likelihood gives. -/
theorem c89_best_fit (hP : IsProbabilityMeasure Pr) (m : Mdl 1 P) (A : Mdl.Arrays) (hg : GaussianModel m A)
    (ha : AffineYields m A) (hpd : (invCov m).PosDef) (x : ℝ) (θ : Fin P → ℝ) (D : Ω → Mdl.DataV P)
    (hD : Follows m A x θ Pr D) (σ : ℝ) (hσ : 0 < σ) (best const : Ω → ℝ)
    (hb : ∀ ω, Parabola m A (D ω) (best ω) σ (const ω)) :
    HasLaw best (gaussianReal x (Real.toNNReal (σ ^ 2))) Pr ∧ ∫ ω, best ω ∂Pr = x ∧ Var[best; Pr] = σ ^ 2 := by
  have h := best_law hP hg ha hpd hD hσ hb
  refine ⟨h, ?_, ?_⟩
  · rw [h.integral_eq, meas, integral_id_gaussianReal]
  · rw [h.variance_eq, meas, variance_id_gaussianReal]
    simp [sq_nonneg]

/-! ### Levels of the p-values -/

theorem level_below (hσ : 0 < σ) {x : ℝ} {best : Ω → ℝ} (h : HasLaw best (meas x σ) Pr) {α : ℝ} (h0 : 0 < α)
    (h1 : α < 1) : Pr {ω | probBelow x σ (best ω) ≤ α} = ENNReal.ofReal α := by
  obtain ⟨y, hy⟩ := normSf_surj α h0 h1
  have e : {ω | probBelow x σ (best ω) ≤ α} = {ω | best ω ≤ x - σ * y} := by
    ext ω
    simp only [Set.mem_setOf_eq]
    rw [probBelow_eq _ _ _ hσ, ← hy, normSf_strictAnti.le_iff_ge, le_div_iff₀ hσ]
    constructor <;> intro hh <;> linarith
  have hp : IsProbabilityMeasure (meas x σ) := by unfold meas; infer_instance
  rw [e, h.measure_eq (p := fun b => b ≤ x - σ * y) measurableSet_Iic]
  have h2 := probBelow_eq x σ (x - σ * y) hσ
  rw [sub_sub_cancel, mul_div_cancel_left₀ _ hσ.ne', hy] at h2
  rw [← h2, probBelow, ofReal_measureReal]
  rfl

theorem level_far (hσ : 0 < σ) {x : ℝ} {best : Ω → ℝ} (h : HasLaw best (meas x σ) Pr) {α : ℝ} (h0 : 0 < α)
    (h1 : α < 1) : Pr {ω | probFar x σ (best ω) ≤ α} = ENNReal.ofReal α := by
  obtain ⟨y, hy⟩ := normSf_surj (α / 2) (by linarith) (by linarith)
  have hy0 : 0 < y := by
    by_contra hc
    have h2 := normSf_strictAnti.antitone (not_lt.1 hc)
    have h3 := normSf_symm 0
    rw [neg_zero] at h3
    linarith
  have e : {ω | probFar x σ (best ω) ≤ α} = {ω | |(x + σ * y) - x| ≤ |best ω - x|} := by
    ext ω
    simp only [Set.mem_setOf_eq]
    rw [probFar_eq _ _ _ hσ, add_sub_cancel_left, abs_of_pos (mul_pos hσ hy0)]
    have : 2 * normSf (|best ω - x| / σ) ≤ α ↔ normSf (|best ω - x| / σ) ≤ normSf y := by
      rw [hy]; constructor <;> intro hh <;> linarith
    rw [this, normSf_strictAnti.le_iff_ge, le_div_iff₀ hσ, mul_comm]
  have hp : IsProbabilityMeasure (meas x σ) := by unfold meas; infer_instance
  rw [e, h.measure_eq (p := fun b => |(x + σ * y) - x| ≤ |b - x|)
    (measurableSet_le measurable_const (by fun_prop))]
  have h2 := probFar_eq x σ (x + σ * y) hσ
  rw [add_sub_cancel_left, abs_of_pos (mul_pos hσ hy0), mul_div_cancel_left₀ _ hσ.ne', hy] at h2
  have h3 : probFar x σ (x + σ * y) = α := by rw [h2]; ring
  rw [← h3, probFar, ofReal_measureReal]

theorem storedAs_unique {m : Mdl 1 P} {mus : List ℝ} {r : Raster} {key : String} {f : ℝ → ℝ} (hd : mus.Nodup)
    (h : List.Forall₂ (fun mu e => e.1 = [(m.pois 0, mu)] ∧ pvIs e.2.data key (f mu)) mus r) {x v : ℝ}
    (hx : x ∈ mus) : StoredAs m r x key v ↔ v = f x := by
  constructor
  · rintro ⟨e, he, h1, h2⟩
    obtain ⟨mu, hmu, h3, h4⟩ := forall2_exists_left h e he
    rw [h1] at h3
    have : x = mu := by simpa using h3
    subst this
    unfold pvIs at h2 h4
    exact Option.some.inj (h2.symm.trans h4)
  · rintro rfl
    obtain ⟨e, he, h1, h2⟩ := forall2_exists_right h x hx
    exact ⟨e, he, h1, h2⟩

theorem analysed_qmu {m : Mdl 1 P} {A : Mdl.Arrays} (hg : GaussianModel m A) (ha : AffineYields m A)
    (hname : ∀ p, (m.nps p).name ≠ m.pois 0) {d : Mdl.DataV P} {best σ const : ℝ} (hσ : 0 < σ)
    (hp : Parabola m A d best σ const) {floor : Option ℝ} {mus : List ℝ} (hd : mus.Nodup)
    (hpos : ∀ mu ∈ mus, 0 < mu) {r : Raster} (hr : Analysed m A floor .qmu mus d best r) :
    List.Forall₂ (fun mu e => e.1 = [(m.pois 0, mu)] ∧
        pvIs e.2.data "pv" (probBelow mu σ best) ∧ pvIs e.2.data "clb" (probBelow 0 σ best) ∧
        pvIs e.2.data "cls" (exactCls σ best mu)) mus r := by
  obtain ⟨lo, hi, c, s0, s', h, hu, hend, hm, hres⟩ := hr
  obtain ⟨s2, r2, e1, e2⟩ := c73_scan_qmu m A hg ha hname d best σ const hσ hp floor lo hi c s0 hu hend hm h mus hd hpos
  rw [hres] at e1
  cases e1
  exact e2

theorem analysed_tmu {m : Mdl 1 P} {A : Mdl.Arrays} (hg : GaussianModel m A) (ha : AffineYields m A)
    {d : Mdl.DataV P} {best σ const : ℝ} (hσ : 0 < σ)
    (hp : Parabola m A d best σ const) {floor : Option ℝ} {mus : List ℝ} (hd : mus.Nodup)
    {r : Raster} (hr : Analysed m A floor .tmu mus d best r) :
    List.Forall₂ (fun mu e => e.1 = [(m.pois 0, mu)] ∧ pvIs e.2.data "pv" (probFar mu σ best)) mus r := by
  obtain ⟨lo, hi, c, s0, s', h, hu, hend, hm, hres⟩ := hr
  exact c73_tmu_exact m A hg ha d best σ const hσ hp floor lo hi c s0 s' hu h mus hd r hres

/-- C89: one-sided p-values.  For datasets that follow the likelihood at the POI value `x`, the p-value
stored for `x` is at most `α` with probability exactly `α`. -/
theorem c89_pvalue (hP : IsProbabilityMeasure Pr) (m : Mdl 1 P) (A : Mdl.Arrays) (hg : GaussianModel m A)
    (ha : AffineYields m A) (hname : ∀ p, (m.nps p).name ≠ m.pois 0) (hpd : (invCov m).PosDef) (x : ℝ)
    (θ : Fin P → ℝ) (D : Ω → Mdl.DataV P) (hD : Follows m A x θ Pr D) (σ : ℝ) (hσ : 0 < σ) (best const : Ω → ℝ)
    (hb : ∀ ω, Parabola m A (D ω) (best ω) σ (const ω)) (floor : Option ℝ) (mus : List ℝ) (hd : mus.Nodup)
    (hpos : ∀ mu ∈ mus, 0 < mu) (hx : x ∈ mus) (r : Ω → Raster)
    (hr : ∀ ω, Analysed m A floor .qmu mus (D ω) (best ω) (r ω)) (α : ℝ) (h0 : 0 < α) (h1 : α < 1) :
    Pr {ω | ∃ v, StoredAs m (r ω) x "pv" v ∧ v ≤ α} = ENNReal.ofReal α := by
  rw [← level_below hσ (best_law hP hg ha hpd hD hσ hb) h0 h1]
  congr 1
  ext ω
  have hq := (analysed_qmu hg ha hname hσ (hb ω) hd hpos (hr ω)).imp (fun _ _ h => And.intro h.1 h.2.1)
  simp [storedAs_unique hd hq hx]

/-- C89: two-sided p-values.  The same with the two-sided statistic: the set of the values of the POI with
p-values above `α` contains the true one with probability `1 - α`. -/
theorem c89_two_sided (hP : IsProbabilityMeasure Pr) (m : Mdl 1 P) (A : Mdl.Arrays) (hg : GaussianModel m A)
    (ha : AffineYields m A) (hpd : (invCov m).PosDef) (x : ℝ)
    (θ : Fin P → ℝ) (D : Ω → Mdl.DataV P) (hD : Follows m A x θ Pr D) (σ : ℝ) (hσ : 0 < σ) (best const : Ω → ℝ)
    (hb : ∀ ω, Parabola m A (D ω) (best ω) σ (const ω)) (floor : Option ℝ) (mus : List ℝ) (hd : mus.Nodup)
    (hx : x ∈ mus) (r : Ω → Raster)
    (hr : ∀ ω, Analysed m A floor .tmu mus (D ω) (best ω) (r ω)) (α : ℝ) (h0 : 0 < α) (h1 : α < 1) :
    Pr {ω | ∃ v, StoredAs m (r ω) x "pv" v ∧ v ≤ α} = ENNReal.ofReal α := by
  rw [← level_far hσ (best_law hP hg ha hpd hD hσ hb) h0 h1]
  congr 1
  ext ω
  simp [storedAs_unique hd (analysed_tmu hg ha hσ (hb ω) hd (hr ω)) hx]

theorem cls_ge_pv {σ best x : ℝ} (hσ : 0 < σ) : probBelow x σ best ≤ exactCls σ best x := by
  rw [exactCls_eq _ _ _ hσ, probBelow_eq _ _ _ hσ, le_div_iff₀ (normSf_pos _)]
  have h1 := normSf_pos ((x - best) / σ)
  have h2 := normSf_lt_one ((0 - best) / σ)
  nlinarith

/-- C89: CLs.  For datasets that follow the likelihood at the POI value `x`, the CLs stored for `x` is at most
`α` with probability at most `α`; for this the analysis may also fail, or miss the conditions, for some of the
datasets. -/
theorem c89_cls (hP : IsProbabilityMeasure Pr) (m : Mdl 1 P) (A : Mdl.Arrays) (hg : GaussianModel m A)
    (ha : AffineYields m A) (hname : ∀ p, (m.nps p).name ≠ m.pois 0) (hpd : (invCov m).PosDef) (x : ℝ)
    (θ : Fin P → ℝ) (D : Ω → Mdl.DataV P) (hD : Follows m A x θ Pr D) (σ : ℝ) (hσ : 0 < σ) (best const : Ω → ℝ)
    (hb : ∀ ω, Parabola m A (D ω) (best ω) σ (const ω)) (floor : Option ℝ) (mus : List ℝ) (hd : mus.Nodup)
    (hpos : ∀ mu ∈ mus, 0 < mu) (hx : x ∈ mus) (r : Ω → Raster) (α : ℝ) (h0 : 0 < α) (h1 : α < 1) :
    Pr {ω | Analysed m A floor .qmu mus (D ω) (best ω) (r ω) ∧ ∃ v, StoredAs m (r ω) x "cls" v ∧ v ≤ α} ≤
      ENNReal.ofReal α := by
  rw [← level_below hσ (best_law hP hg ha hpd hD hσ hb) h0 h1]
  refine measure_mono ?_
  rintro ω ⟨hr, v, hv, hva⟩
  have hq := (analysed_qmu hg ha hname hσ (hb ω) hd hpos hr).imp (fun _ _ h => And.intro h.1 h.2.2.2)
  rw [storedAs_unique hd hq hx] at hv
  rw [hv] at hva
  exact (cls_ge_pv hσ).trans hva

/-- C89: coverage of the limits.  For datasets that follow the likelihood at one of the scanned values of the
POI, the probability that the 95% CLs limit reported by the scan is below the true value is at most 5% (counting
only the datasets whose exact limit is in the scanned range and whose interpolated curve crosses the level only
once, for which C73 says that a limit is reported). -/
theorem c89_limit (hP : IsProbabilityMeasure Pr) (m : Mdl 1 P) (A : Mdl.Arrays) (hg : GaussianModel m A)
    (ha : AffineYields m A) (hname : ∀ p, (m.nps p).name ≠ m.pois 0) (hpd : (invCov m).PosDef) (x : ℝ)
    (θ : Fin P → ℝ) (D : Ω → Mdl.DataV P) (hD : Follows m A x θ Pr D) (σ : ℝ) (hσ : 0 < σ) (best const : Ω → ℝ)
    (hb : ∀ ω, Parabola m A (D ω) (best ω) σ (const ω)) (floor : Option ℝ) (mus : List ℝ)
    (hd : mus.Pairwise (· < ·)) (h4 : 4 ≤ mus.length) (hpos : ∀ mu ∈ mus, 0 < mu) (hx : x ∈ mus) (r : Ω → Raster)
    (L : SplineLib) (hL : L.Correct) :
    Pr {ω | Analysed m A floor .qmu mus (D ω) (best ω) (r ω) ∧
        (∃ exact a b, exactCls σ (best ω) exact = 1 - 95/100 ∧ a ∈ mus ∧ a ≤ exact ∧ b ∈ mus ∧ exact ≤ b) ∧
        (∀ y z, Between (exactPoints σ (best ω) mus) y → Between (exactPoints σ (best ω) mus) z →
          logCurve L (exactPoints σ (best ω) mus) (1 - 95/100) y = 1 - 95/100 →
          logCurve L (exactPoints σ (best ω) mus) (1 - 95/100) z = 1 - 95/100 → y = z) ∧
        ∃ l, Scan.limit L "cls" (m.pois 0) (SRaster.ofRaster (r ω)) = .ok (some l) ∧ l < x} ≤
      ENNReal.ofReal (5/100) := by
  rw [← level_below hσ (best_law hP hg ha hpd hD hσ hb) (by norm_num : (0:ℝ) < 5/100) (by norm_num)]
  refine measure_mono ?_
  rintro ω ⟨⟨lo, hi, c, s0, s', h, hu, hend, hm, hres⟩, ⟨ex, a, b, hex, ha1, ha2, hb1, hb2⟩, hone, l, hl, hlx⟩
  obtain ⟨s2, r2, x2, e1, e2, e3⟩ := c73_scan_limit m A hg ha hname (D ω) (best ω) σ (const ω) hσ (hb ω) floor lo hi c
    s0 hu hend hm h mus hd h4 hpos ex hex ⟨⟨a, ha1, ha2⟩, b, hb1, hb2⟩ L hL hone
  rw [hres] at e1
  cases e1
  rw [hl] at e2
  cases e2
  have h1 : ex ≤ x := by
    by_contra hc
    exact (e3 x hx).1 ⟨hlx, not_le.1 hc⟩
  have h2 := (exactCls_anti σ (best ω) hσ).antitone h1
  rw [hex] at h2
  have h3 := cls_ge_pv (best := best ω) (x := x) hσ
  show probBelow x σ (best ω) ≤ 5/100
  linarith

/-- C89: the exact limit covers the true value with at least the stated probability, for any confidence level
and any positive true value. -/
theorem c89_exact_limit (hP : IsProbabilityMeasure Pr) (m : Mdl 1 P) (A : Mdl.Arrays) (hg : GaussianModel m A)
    (ha : AffineYields m A) (hpd : (invCov m).PosDef) (x : ℝ)
    (θ : Fin P → ℝ) (D : Ω → Mdl.DataV P) (hD : Follows m A x θ Pr D) (σ : ℝ) (hσ : 0 < σ) (best const : Ω → ℝ)
    (hb : ∀ ω, Parabola m A (D ω) (best ω) σ (const ω)) (cl : ℝ) (h0 : 0 < cl) (h1 : cl < 1) (lim : Ω → ℝ)
    (hlim : ∀ ω, exactCls σ (best ω) (lim ω) = 1 - cl) :
    ENNReal.ofReal cl ≤ Pr {ω | x ≤ lim ω} := by
  have hl := level_below hσ (best_law hP hg ha hpd hD hσ hb) (by linarith : 0 < 1 - cl) (by linarith)
  have hsub : {ω | x ≤ lim ω}ᶜ ⊆ {ω | probBelow x σ (best ω) ≤ 1 - cl} := by
    intro ω hω
    have h2 := (exactCls_anti σ (best ω) hσ).antitone (not_le.1 (show ¬ x ≤ lim ω from hω)).le
    rw [hlim] at h2
    exact (cls_ge_pv hσ).trans h2
  have h2 : Pr {ω | x ≤ lim ω}ᶜ ≤ ENNReal.ofReal (1 - cl) := hl ▸ measure_mono hsub
  have h3 : 1 ≤ Pr {ω | x ≤ lim ω} + Pr {ω | x ≤ lim ω}ᶜ := by
    rw [← hP.measure_univ, ← Set.union_compl_self {ω | x ≤ lim ω}]
    exact measure_union_le _ _
  have h4 : (1 : ENNReal) = ENNReal.ofReal cl + ENNReal.ofReal (1 - cl) := by
    rw [← ENNReal.ofReal_add h0.le (by linarith)]; simp
  have h5 : ENNReal.ofReal cl + ENNReal.ofReal (1 - cl) ≤ Pr {ω | x ≤ lim ω} + ENNReal.ofReal (1 - cl) := by
    rw [← h4]; exact h3.trans (add_le_add_right h2 _)
  exact (ENNReal.add_le_add_iff_right ENNReal.ofReal_ne_top).1 h5

/-! ### The pseudo-datasets of the code -/

theorem indep_pull {X Y β γ : Type} [MeasurableSpace X] [MeasurableSpace Y] [MeasurableSpace β] [MeasurableSpace γ]
    {μ : Measure X} {ν : Measure Y} [IsProbabilityMeasure μ] [IsProbabilityMeasure ν] {φ : X → Y}
    (hφ : MeasurePreserving φ μ ν) {f : Y → β} {g : Y → γ} (hf : Measurable f) (hg : Measurable g)
    (h : IndepFun f g ν) : IndepFun (fun t => f (φ t)) (fun t => g (φ t)) μ := by
  rw [indepFun_iff_map_prod_eq_prod_map_map hf.aemeasurable hg.aemeasurable] at h
  have hf' : Measurable fun t => f (φ t) := hf.comp hφ.measurable
  have hg' : Measurable fun t => g (φ t) := hg.comp hφ.measurable
  rw [indepFun_iff_map_prod_eq_prod_map_map hf'.aemeasurable hg'.aemeasurable]
  have e1 : μ.map (fun t => f (φ t)) = ν.map f := by
    rw [← hφ.map_eq, Measure.map_map hf hφ.measurable]; rfl
  have e2 : μ.map (fun t => g (φ t)) = ν.map g := by
    rw [← hφ.map_eq, Measure.map_map hg hφ.measurable]; rfl
  have e3 : μ.map (fun t => (f (φ t), g (φ t))) = ν.map (fun y => (f y, g y)) := by
    rw [← hφ.map_eq, Measure.map_map (hf.prodMk hg) hφ.measurable]; rfl
  rw [e1, e2, e3, h]

theorem iindep_pull {X Y ι : Type} [Fintype ι] [MeasurableSpace X] [MeasurableSpace Y]
    {μ : Measure X} {ν : Measure Y} [IsProbabilityMeasure μ] [IsProbabilityMeasure ν] {φ : X → Y}
    (hφ : MeasurePreserving φ μ ν) {f : ι → Y → ℝ} (hf : ∀ i, Measurable (f i))
    (h : iIndepFun f ν) : iIndepFun (fun i t => f i (φ t)) μ := by
  rw [iIndepFun_iff_map_fun_eq_pi_map (fun i => (hf i).aemeasurable)] at h
  have hf' : ∀ i, Measurable fun t => f i (φ t) := fun i => (hf i).comp hφ.measurable
  rw [iIndepFun_iff_map_fun_eq_pi_map (fun i => (hf' i).aemeasurable)]
  have e1 : ∀ i, μ.map (fun t => f i (φ t)) = ν.map (f i) := by
    intro i
    rw [← hφ.map_eq, Measure.map_map (hf i) hφ.measurable]; rfl
  have e3 : μ.map (fun t i => f i (φ t)) = ν.map (fun y i => f i y) := by
    rw [← hφ.map_eq, Measure.map_map (measurable_pi_lambda _ hf) hφ.measurable]; rfl
  simp only [e1]
  rw [e3, h]

/-- C89: the pseudo-datasets that the code generates are such datasets if the covariance of the Gaussian bins is
the unit matrix and the NPs have positive constraints and unit variations (in general they are not: F66, F67). -/
theorem c89_toys (m : Mdl 1 P) (A : Mdl.Arrays) (hg : GaussianModel m A) (ha : AffineYields m A)
    (hH : invCov m = 1) (hc : ∀ p c, (m.nps p).constraint = some c → 0 < c ∧ |(m.nps p).variation| = 1)
    (x : ℝ) (θ : Fin P → ℝ) :
    ∃ μ, m.toyLaw A (fun _ => x) θ = .ok μ ∧ IsProbabilityMeasure μ ∧
      Follows m A x θ μ (fun t : m.Toy => m.toyData t) := by
  obtain ⟨a, s, c, hy, _⟩ := ha
  obtain ⟨N, hN, _⟩ := hy x θ
  have h0 : m.nbinsPoisson = 0 := hg.noPoisson
  have hp : ∀ b < m.nbinsPoisson, 0 ≤ N b := by intro b hb; omega
  refine ⟨lawM m N θ, toyLaw_ok m A _ θ N hN hp (fun p c h => (hc p c h).1.le), inferInstance, ?_⟩
  have hcounts : ∀ (t : m.Toy) (i : Fin m.nbinsGaussian), (m.toyData t).counts i = t.2.1 i := by
    intro t i
    simp only [Mdl.toyData]
    rw [dif_neg (by omega), dif_pos (by omega)]
    exact congrArg t.2.1 (Fin.ext (show (i : ℕ) - m.nbinsPoisson = i by omega))
  have hbins : (fun t : m.Toy => WithLp.toLp 2 fun i : Fin m.nbinsGaussian => (m.toyData t).counts i) =
      fun t : m.Toy => WithLp.toLp 2 t.2.1 := by
    funext t
    congr 1
    funext i
    exact hcounts t i
  constructor
  · refine ⟨N, hN, ?_⟩
    rw [hbins]
    refine ⟨by fun_prop, ?_⟩
    have e : (fun t : m.Toy => WithLp.toLp 2 t.2.1) = (WithLp.toLp 2) ∘ (fun t : m.Toy => t.2.1) := rfl
    rw [e, ← Measure.map_map (by fun_prop) (by fun_prop), (marginal_gaussians m N θ).map_eq, Mdl.gaussLaw,
      Measure.map_map (by fun_prop) (by fun_prop)]
    have e2 : (WithLp.toLp 2 : (Fin m.nbinsGaussian → ℝ) → EuclideanSpace ℝ (Fin m.nbinsGaussian)) ∘ WithLp.ofLp = id := rfl
    rw [e2, Measure.map_id, hH, inv_one]
    simp only [h0, zero_add]
    rw [show (Matrix.of fun i j : Fin m.nbinsGaussian => m.poiHessian i j) = invCov m from rfl, hH]
  · intro p
    obtain ⟨k, hk, hk0, _⟩ := hg.constrained p
    refine ⟨k, hk, ?_⟩
    have hm := marginal_aux m N θ p
    cases hcp : (m.nps p).constraint with
    | none => simp [NP.scaledConstraint, hcp] at hk
    | some w =>
      obtain ⟨hw, hv⟩ := hc p w hcp
      have hv0 : (m.nps p).variation ≠ 0 := by
        intro h; rw [h] at hv; simp at hv
      have hkk : k ^ 2 = w ^ 2 := by
        have hk' : k = w / (m.nps p).variation := by
          simp [NP.scaledConstraint, hcp, hv0] at hk
          exact hk.symm
        rw [hk', div_pow, ← sq_abs (m.nps p).variation, hv]; simp
      rw [hkk]
      refine ⟨hm.measurable.aemeasurable, ?_⟩
      have := hm.map_eq
      simp only [auxM, hcp] at this
      exact this
  · exact iindep_pull (f := fun p (y : Fin P → ℝ) => y p) (measurePreserving_snd.comp measurePreserving_snd)
      (fun p => by fun_prop) (iIndepFun_pi (X := fun _ y => y) (fun p => aemeasurable_id'))
  · rw [hbins]
    exact indep_pull (f := fun z : (Fin m.nbinsGaussian → ℝ) × (Fin P → ℝ) => WithLp.toLp 2 z.1)
      (g := fun z : (Fin m.nbinsGaussian → ℝ) × (Fin P → ℝ) => z.2) measurePreserving_snd (by fun_prop) (by fun_prop)
      (indepFun_prod (X := fun z => WithLp.toLp 2 z) (Y := fun z => z) (by fun_prop) measurable_id')

/-! ### Non-vacuity -/

/-- The unit covariance of the example model. -/
theorem sb_invCov : invCov Demo.sb = 1 := by
  have hn : Demo.sb.nbinsGaussian = 1 := Demo.sb_shapes.2.2.2
  ext i j
  have hi : (i : ℕ) = 0 := by omega
  have hj : (j : ℕ) = 0 := by omega
  have hij : i = j := Fin.ext (by omega)
  subst hij
  simp [invCov, hi, Demo.sb_hessian]

/-- All the conditions are met: the model with signal and background, the datasets that the code generates for it
at the signal 2, each analysed in a range that contains its best-fit value; for these the p-value stored for the
signal 2 is at most 5% in 5% of the cases. -/
example : ∃ (A : Mdl.Arrays) (μ : Measure Demo.sb.Toy) (r : Demo.sb.Toy → Raster),
    Demo.sb.setInternal = .ok A ∧ Demo.sb.toyLaw A (fun _ => 2) ![3] = .ok μ ∧
    μ {t | ∃ v, StoredAs Demo.sb (r t) 2 "pv" v ∧ v ≤ 5/100} = ENNReal.ofReal (5/100) := by
  obtain ⟨A, hA, h0, h1⟩ := Demo.sb_internal
  have hg := Demo.sb_gaussian h0 h1
  have ha := Demo.sb_affine h0 h1
  have hn : ∀ p, (Demo.sb.nps p).name ≠ Demo.sb.pois 0 := by
    intro p
    have : p = 0 := Subsingleton.elim _ _
    subst this
    simp [Demo.sb]
  obtain ⟨σ, hσ, hpar, _⟩ := c73_gaussian_measurement Demo.sb A hg ha
  obtain ⟨μ, hμ, hP, hD⟩ := c89_toys Demo.sb A hg ha sb_invCov (by
    intro p c hc
    have : p = 0 := Subsingleton.elim _ _
    subst this
    simp [Demo.sb] at hc ⊢
    rw [← hc]; norm_num) 2 ![3]
  choose best const hb using fun t : Demo.sb.Toy => hpar (Demo.sb.toyData t)
  have hex : ∀ t : Demo.sb.Toy, ∃ r, Analysed Demo.sb A none .qmu [1, 2, 3] (Demo.sb.toyData t) (best t) r := by
    intro t
    have hu := goodUse_exists hg ha (hb t) (lo := -(|best t| + 1)) (hi := |best t| + 1)
      (by linarith [abs_nonneg (best t)]) (by linarith [neg_abs_le (best t)]) (by linarith [le_abs_self (best t)])
      (by linarith [abs_nonneg (best t)]) (by linarith [abs_nonneg (best t)]) none
    obtain ⟨s', r, e1, _⟩ := c73_scan_qmu Demo.sb A hg ha hn _ _ σ _ hσ (hb t) none _ _ _ _ hu straight_ends
      (by simp [KnownMethod]) (fun _ => 0) [1, 2, 3] (by norm_num) (by norm_num)
    exact ⟨r, _, _, _, _, s', _, hu, straight_ends, by simp [KnownMethod], e1⟩
  choose r hr using hex
  refine ⟨A, μ, r, hA, hμ, ?_⟩
  exact c89_pvalue hP Demo.sb A hg ha hn (by rw [sb_invCov]; exact Matrix.PosDef.one) 2 ![3] _ hD σ hσ best const hb none
    [1, 2, 3] (by norm_num) (by norm_num) (by norm_num) r hr (5/100) (by norm_num) (by norm_num)

end Verif.Props
