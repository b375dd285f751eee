import Verif.Lemmas.Demo
/-!
# C14–C17: the likelihood, its derivatives, its offset, and Asimov datasets

`m : Mdl n P` is a model with `n` POIs and `P` NPs, `A` its internal arrays (any arrays: the theorems
do not depend on how they were filled), `x`/`θ` a POI/NP point, `d` a dataset.
`m.totBinExp A x θ = .ok N` says that the expected yields can be computed, with totals `N b`.
-/
namespace Verif.Props
open Verif Filter Topology
variable {n P : Nat}

/-- C14 (no offset).  For a model with Poisson channels only, at any point where the expected yields
are positive, `gradient` returns a vector which is the gradient of the NLL with respect to the POIs. -/
theorem c14_gradient (m : Mdl n P) (A : Mdl.Arrays) (hD : m.ctx.Distinct) (hE : m.NoEmptyNorm)
    (hG : m.nbinsGaussian = 0) (x : Fin n → ℝ) (θ : Fin P → ℝ) (d : Mdl.DataV P) (N : Nat → ℝ)
    (hN : m.totBinExp A x θ = .ok N) (hp : ∀ b < m.nbins, 0 < N b) :
    ∃ (g : Fin n → ℝ) (f : (Fin n → ℝ) → ℝ), m.gradient A x θ d = some g ∧
      (∀ᶠ y in 𝓝 x, m.nll A y θ d false = .ok (.fin (f y))) ∧ HasGrad f g x ∧
      ∀ i, HasDerivAt (fun t => f (Function.update x i t)) (g i) (x i) := by
  obtain ⟨vals, hx, hc, rfl⟩ := Mdl.tot_inv hN
  have hnb : m.nbins = m.nbinsPoisson := by rw [m.nbins_eq, hG]; rfl
  have hpf : ∀ b < m.nbins, 0 < m.Nf A θ b x := fun b hb => by
    rw [← Mdl.totAt_eq_Nf hx hE]; exact hp b hb
  have hgr : ∀ b < m.nbins, HasGrad (m.Nf A θ b) (m.Gf A θ b x) x := fun b _ =>
    Mdl.Nf_hasGrad hD hx hc hE A θ b
  have h1 := Mdl.poisson_hasGrad (c := d.counts) hgr hpf
  have hpos : ∀ᶠ y in 𝓝 x, ∀ b ∈ Finset.range m.nbins, 0 < m.Nf A θ b y :=
    (Finset.eventually_all _).2 (fun b hb =>
      (hgr b (Finset.mem_range.1 hb)).continuousAt.eventually (lt_mem_nhds (hpf b (Finset.mem_range.1 hb))))
  have h2 := h1.add (hasGrad_const (m.constraintTerm θ d) x)
  simp only [Pi.zero_apply, add_zero] at h2
  refine ⟨_, _, by simp only [Mdl.gradient, Mdl.gradientCore_ok hD hx hc hE A θ d]; rfl, ?_, h2,
    h2.partial⟩
  filter_upwards [Mdl.eventually_computable hD hx hc, hpos] with y ⟨vy, hy, hcy⟩ hpy
  have hty := Mdl.tot_ok A θ hy hcy
  rw [Mdl.nll_ok hty (fun b hb => by
    rw [Mdl.totAt_eq_Nf hy hE]; exact hpy b (Finset.mem_range.2 (hnb ▸ hb)))]
  simp only [Mdl.nllVal, Mdl.quad, hG, Finset.range_zero, Finset.sum_empty, mul_zero, add_zero,
    Bool.false_eq_true, if_false, Mdl.totAt_eq_Nf hy hE, ← hnb]

/-- C14 (with the default offset, positive reference yields). -/
theorem c14_gradient_offset (m : Mdl n P) (A : Mdl.Arrays) (hD : m.ctx.Distinct) (hE : m.NoEmptyNorm)
    (hG : m.nbinsGaussian = 0) (x : Fin n → ℝ) (θ : Fin P → ℝ) (d : Mdl.DataV P) (N N0 : Nat → ℝ)
    (hN : m.totBinExp A x θ = .ok N) (hp : ∀ b < m.nbins, 0 < N b)
    (hN0 : m.refTot A = .ok N0) (hp0 : ∀ b < m.nbins, 0 < N0 b) :
    ∃ (g : Fin n → ℝ) (f : (Fin n → ℝ) → ℝ), m.gradient A x θ d = some g ∧
      (∀ᶠ y in 𝓝 x, m.nll A y θ d true = .ok (.fin (f y))) ∧ HasGrad f g x ∧
      ∀ i, HasDerivAt (fun t => f (Function.update x i t)) (g i) (x i) := by
  obtain ⟨vals, hx, hc, rfl⟩ := Mdl.tot_inv hN
  have hnb : m.nbins = m.nbinsPoisson := by rw [m.nbins_eq, hG]; rfl
  have hpf : ∀ b < m.nbins, 0 < m.Nf A θ b x := fun b hb => by
    rw [← Mdl.totAt_eq_Nf hx hE]; exact hp b hb
  have hgr : ∀ b < m.nbins, HasGrad (m.Nf A θ b) (m.Gf A θ b x) x := fun b _ =>
    Mdl.Nf_hasGrad hD hx hc hE A θ b
  have h1 := Mdl.poisson_hasGrad (c := d.counts) hgr hpf
  have hpos : ∀ᶠ y in 𝓝 x, ∀ b ∈ Finset.range m.nbins, 0 < m.Nf A θ b y :=
    (Finset.eventually_all _).2 (fun b hb =>
      (hgr b (Finset.mem_range.1 hb)).continuousAt.eventually (lt_mem_nhds (hpf b (Finset.mem_range.1 hb))))
  have h2 := h1.add (hasGrad_const (m.constraintTerm θ d - m.offsetVal N0 d) x)
  simp only [Pi.zero_apply, add_zero] at h2
  refine ⟨_, _, by simp only [Mdl.gradient, Mdl.gradientCore_ok hD hx hc hE A θ d]; rfl, ?_, h2,
    h2.partial⟩
  filter_upwards [Mdl.eventually_computable hD hx hc, hpos] with y ⟨vy, hy, hcy⟩ hpy
  have hty := Mdl.tot_ok A θ hy hcy
  have hpy' : ∀ b < m.nbinsPoisson, 0 < m.totAt A vy θ b := fun b hb => by
    rw [Mdl.totAt_eq_Nf hy hE]; exact hpy b (Finset.mem_range.2 (hnb ▸ hb))
  rw [Mdl.nll_off_ok hty hpy' hN0 (fun b hb => hp0 b (hnb ▸ hb)), Mdl.nllValOff_eq hpy'
    (fun b hb => hp0 b (hnb ▸ hb)) _ (fun i hi => by omega)]
  simp only [Mdl.nllVal, Mdl.quad, hG, Finset.range_zero, Finset.sum_empty, mul_zero, add_zero,
    Bool.false_eq_true, if_false, Mdl.totAt_eq_Nf hy hE, ← hnb]
  rw [add_sub_assoc]

/-- Finding F04: with a Gaussian channel the gradient returned is not the derivative of the NLL
(the Poisson formula is applied to the Gaussian bins). -/
theorem c14_gaussian_fails :
    ∃ (m : Mdl 1 0) (A : Mdl.Arrays) (d : Mdl.DataV 0) (x : Fin 1 → ℝ) (g : Fin 1 → ℝ)
      (f : (Fin 1 → ℝ) → ℝ), m.ctx.Distinct ∧ m.gradient A x 0 d = some g ∧
      (∀ y, m.nll A y 0 d false = .ok (.fin (f y))) ∧ ¬ HasGrad f g x := by
  let A : Mdl.Arrays := ⟨⟨1, fun _ => 0, fun _ => 0⟩, fun _ _ _ => 0⟩
  let d : Mdl.DataV 0 := ⟨fun _ => 1, 0⟩
  have hvals : ∀ y, Demo.gauss.ctx.realVals y = .ok [("mu", y 0)] := by
    intro y; simp [ExprCtx.realVals, ExprCtx.evalLoop, ExprCtx.base, Mdl.ctx, Demo.gauss]
  have hsh : Demo.gauss.nbins = 1 ∧ Demo.gauss.nbinsPoisson = 0 ∧ Demo.gauss.nbinsGaussian = 1 ∧
      Demo.gauss.maxSamples = 1 := by
    simp [Mdl.nbins, Mdl.nbinsPoisson, Mdl.nbinsGaussian, Mdl.maxSamples, Mdl.chanState, Demo.gauss,
      chanStep]
  have hH : Demo.gauss.poiHessian 0 0 = 1 := by
    simp [Mdl.poiHessian, Mdl.chanState, Demo.gauss, chanStep, Mdl.nbinsPoisson]
  have hcomp : ∀ y : Fin 1 → ℝ, Demo.gauss.Computable [("mu", y 0)] := by
    intro y
    refine ⟨?_, ?_, ?_⟩
    · intro s hs
      rw [hsh.2.2.2] at hs; rw [hsh.1]
      interval_cases s; simp [Mdl.cells, Channel.cells, Demo.gauss]
    · intro ch hc smp hm
      simp only [Demo.gauss, List.mem_singleton] at hc
      subst hc
      simp only [List.mem_singleton] at hm
      subst hm; simp
    · intro ch hc smp hm
      simp only [Demo.gauss, List.mem_singleton] at hc
      subst hc
      simp only [List.mem_singleton] at hm
      subst hm; simp [Norm.value, Dict.getItem, Dict.get?]
  have hE : Demo.gauss.NoEmptyNorm := by
    intro ch hc smp hm
    simp only [Demo.gauss, List.mem_singleton] at hc
    subst hc
    simp only [List.mem_singleton] at hm
    subst hm; simp
  have hD : Demo.gauss.ctx.Distinct := by
    simp [ExprCtx.Distinct, Mdl.ctx, Demo.gauss, Dict.keys]
  have hN : ∀ y : Fin 1 → ℝ, Demo.gauss.totAt A [("mu", y 0)] 0 0 = y 0 := by
    intro y
    simp only [Mdl.totAt, hsh.2.2.2, Finset.sum_range_one]
    simp [Mdl.yieldAt, Mdl.cutKExp, Mdl.kExp, Mdl.cells, Channel.cells, Demo.gauss,
      Mdl.cellVal, Mdl.cellYield, Mdl.normVal, Expr.look, Dict.get?]
  have hgrad := Mdl.gradientCore_ok hD (hvals ![2]) (hcomp ![2]) hE A 0 d
  refine ⟨Demo.gauss, A, d, ![2], _, fun y => (1 / 2) * ((y 0 - 1) * (y 0 - 1)), hD,
    by simp only [Mdl.gradient, hgrad]; rfl, ?_, ?_⟩
  · intro y
    rw [Mdl.nll_ok (Mdl.tot_ok A 0 (hvals y) (hcomp y)) (fun b hb => by rw [hsh.2.1] at hb; omega)]
    simp [-Matrix.zero_empty, Mdl.nllVal, Mdl.quad, hsh.2.1, hsh.2.2.1, hH, hN, Mdl.constraintTerm, d]
  · intro hg
    have h0 := ((hasGrad_proj (0 : Fin 1) ![(2:ℝ)]).sub (hasGrad_const 1 _))
    have h1 := (h0.mul h0).const_mul (1 / 2)
    have := congrFun (hg.unique h1) 0
    have hGf : Demo.gauss.Gf A 0 0 ![2] 0 = 1 := by
      have := (Mdl.Nf_hasGrad hD (hvals ![2]) (hcomp ![2]) hE A 0 0).unique
        (((hasGrad_proj (0 : Fin 1) ![(2:ℝ)])).congr (Eventually.of_forall (fun y => by
          show Demo.gauss.Nf A 0 0 y = y 0
          rw [← Mdl.totAt_eq_Nf (hvals y) hE, hN])))
      rw [this]; simp
    have hNf : Demo.gauss.Nf A 0 0 ![2] = 2 := by
      rw [← Mdl.totAt_eq_Nf (hvals ![2]) hE, hN]; simp
    rw [hsh.1, Finset.sum_range_one, hGf, hNf, Mdl.divOr0_of_ne (by norm_num)] at this
    norm_num [d] at this

/-- Finding F05: a sample whose normalisation is the empty string (documented as a normalisation of 1)
has a well-defined NLL, but `gradient` returns `None`. -/
theorem c14_empty_norm_fails :
    ∃ (m : Mdl 1 0) (A : Mdl.Arrays) (d : Mdl.DataV 0) (x : Fin 1 → ℝ) (v : ℝ),
      m.ctx.Distinct ∧ m.nll A x 0 d false = .ok (.fin v) ∧ m.gradient A x 0 d = none := by
  let A : Mdl.Arrays := ⟨⟨1, fun _ => 0, fun _ => 0⟩, fun _ _ _ => 0⟩
  let m := Demo.one (.expr "") 1
  have hv : m.ctx.realVals ![1] = .ok [("mu", 1)] := by
    simp [ExprCtx.realVals, ExprCtx.evalLoop, ExprCtx.base, Mdl.ctx, Demo.one, m]
  have hsh : m.nbins = 1 ∧ m.nbinsPoisson = 1 ∧ m.maxSamples = 1 := by
    simp [Mdl.nbins, Mdl.nbinsPoisson, Mdl.maxSamples, Mdl.chanState, m, Demo.one, chanStep]
  have hc : m.Computable [("mu", 1)] := by
    refine ⟨?_, ?_, ?_⟩
    · intro s hs
      rw [hsh.2.2] at hs; rw [hsh.1]
      interval_cases s; simp [Mdl.cells, Channel.cells, m, Demo.one]
    · intro ch hc smp hm
      simp only [m, Demo.one, List.mem_singleton] at hc
      subst hc
      simp only [List.mem_singleton] at hm
      subst hm; simp
    · intro ch hc smp hm
      simp only [m, Demo.one, List.mem_singleton] at hc
      subst hc
      simp only [List.mem_singleton] at hm
      subst hm; simp [Norm.value]
  have hN : m.totAt A [("mu", 1)] 0 0 = 1 := by
    simp only [Mdl.totAt, hsh.2.2, Finset.sum_range_one]
    simp [Mdl.yieldAt, Mdl.cutKExp, Mdl.kExp, Mdl.cells, Channel.cells, m, Demo.one,
      Mdl.cellVal, Mdl.cellYield, Mdl.normVal]
  refine ⟨m, A, ⟨fun _ => 1, 0⟩, ![1], _, ?_, Mdl.nll_ok (Mdl.tot_ok A 0 hv hc) ?_, ?_⟩
  · simp [ExprCtx.Distinct, Mdl.ctx, m, Demo.one, Dict.keys]
  · intro b hb
    rw [hsh.2.1] at hb
    interval_cases b; rw [hN]; norm_num
  · obtain ⟨ne, hne, _⟩ := Mdl.nExp_ok A (0 : Fin 0 → ℝ) hv hc
    have : ∀ r, m.stackRows (fun s => s.gradient m.pois m.ctx.reals [("mu", 1)] m.fuel) ≠ .ok r := by
      intro r hr
      obtain ⟨r', hr'⟩ := Mdl.stackRows_inv m _ hr ⟨"c", false, 1, fun _ _ => 0, [⟨"s", .expr "", 1, [1], []⟩]⟩
        (by simp [m, Demo.one]) ⟨"s", .expr "", 1, [1], []⟩ (by simp)
      obtain ⟨g, hg, _⟩ := bind_eq_ok.1 hr'
      simp [Norm.gradient, Mdl.fuel, m, Demo.one, Expr.gradient, Mdl.ctx, ExprCtx.reals, Dict.getItem,
        Dict.get?] at hg
    cases hs : m.stackRows (fun s => s.gradient m.pois m.ctx.reals [("mu", 1)] m.fuel) with
    | ok r => exact absurd hs (this r)
    | error e => simp only [Mdl.gradient, Mdl.gradientCore, hv, hne, hs, bind_ok, bind_error, Except.toOption]

/-- C15.  For a model with Poisson channels only, at a point where the expected yields are positive: if
`hessian` returns a matrix `H`, then near the point the NLL has the value `f y` and `gradient` returns
its gradient `G y`, and column `j` of `H` is the gradient of component `j` of `G` at the point: `H` is the
matrix of second derivatives of the NLL. It is symmetric. -/
theorem c15_hessian (m : Mdl n P) (A : Mdl.Arrays) (hD : m.ctx.Distinct) (hE : m.NoEmptyNorm)
    (hG : m.nbinsGaussian = 0) (x : Fin n → ℝ) (θ : Fin P → ℝ) (d : Mdl.DataV P) (N : Nat → ℝ)
    (hN : m.totBinExp A x θ = .ok N) (hp : ∀ b < m.nbins, 0 < N b)
    (H : Fin n → Fin n → ℝ) (hH : m.hessian A x θ d = some H) :
    (∃ (f : (Fin n → ℝ) → ℝ) (G : (Fin n → ℝ) → Fin n → ℝ),
      (∀ᶠ y in 𝓝 x, m.nll A y θ d false = .ok (.fin (f y)) ∧ m.gradient A y θ d = some (G y) ∧
        HasGrad f (G y) y) ∧
      ∀ j, HasGrad (fun y => G y j) (fun i => H i j) x) ∧
    ∀ i j, H i j = H j i := by
  obtain ⟨vals, hx, hc, rfl⟩ := Mdl.tot_inv hN
  have hH' : m.hessianCore A x θ d = .ok H := by
    simp only [Mdl.hessian] at hH
    cases h : m.hessianCore A x θ d with
    | ok a => rw [h] at hH; simp [Except.toOption] at hH; rw [hH]
    | error e => rw [h] at hH; simp [Except.toOption] at hH
  obtain ⟨hex, rfl⟩ := Mdl.hessianCore_inv hD hx hc hE hH'
  have hnb : m.nbins = m.nbinsPoisson := by rw [m.nbins_eq, hG]; rfl
  have hpf : ∀ b < m.nbins, 0 < m.Nf A θ b x := fun b hb => by
    rw [← Mdl.totAt_eq_Nf hx hE]; exact hp b hb
  have hgr : ∀ b < m.nbins, HasGrad (m.Nf A θ b) (m.Gf A θ b x) x := fun b _ =>
    Mdl.Nf_hasGrad hD hx hc hE A θ b
  have hpos : ∀ᶠ y in 𝓝 x, ∀ b ∈ Finset.range m.nbins, 0 < m.Nf A θ b y :=
    (Finset.eventually_all _).2 (fun b hb =>
      (hgr b (Finset.mem_range.1 hb)).continuousAt.eventually (lt_mem_nhds (hpf b (Finset.mem_range.1 hb))))
  refine ⟨⟨fun y => (∑ b ∈ Finset.range m.nbins, (m.Nf A θ b y - d.counts b * Real.log (m.Nf A θ b y)))
      + m.constraintTerm θ d, fun y i => ∑ b ∈ Finset.range m.nbins,
      (m.Gf A θ b y i - Mdl.divOr0 (m.Gf A θ b y i) (m.Nf A θ b y) * d.counts b), ?_, ?_⟩, ?_⟩
  · filter_upwards [Mdl.eventually_computable hD hx hc, hpos] with y ⟨vy, hy, hcy⟩ hpy
    have hty := Mdl.tot_ok A θ hy hcy
    refine ⟨?_, ?_, ?_⟩
    · rw [Mdl.nll_ok hty (fun b hb => by
        rw [Mdl.totAt_eq_Nf hy hE]; exact hpy b (Finset.mem_range.2 (hnb ▸ hb)))]
      simp only [Mdl.nllVal, Mdl.quad, hG, Finset.range_zero, Finset.sum_empty, mul_zero, add_zero,
        Bool.false_eq_true, if_false, Mdl.totAt_eq_Nf hy hE, ← hnb]
    · simp only [Mdl.gradient, Mdl.gradientCore_ok hD hy hcy hE A θ d]; rfl
    · have h1 := Mdl.poisson_hasGrad (c := d.counts)
        (fun b _ => Mdl.Nf_hasGrad hD hy hcy hE A θ b)
        (fun b hb => hpy b (Finset.mem_range.2 hb))
      have h2 := h1.add (hasGrad_const (m.constraintTerm θ d) y)
      simpa only [Pi.zero_apply, add_zero] using h2
  · intro j
    exact Mdl.poisson_grad_hasGrad hgr hpf (fun b _ => Mdl.Gf_hasGrad hD hx hc hE A θ b hex j)
  · intro i j
    refine Finset.sum_congr rfl (fun b _ => ?_)
    rw [Mdl.Hf_symm hD hx hc hE A θ b hex i j,
      mul_comm (Mdl.divOr0 (m.Gf A θ b x i) (m.Nf A θ b x))]

/-- C15: the Hessian is returned wherever the yields can be computed and no factor of a product/ratio
expression vanishes. -/
theorem c15_hessian_exists (m : Mdl n P) (A : Mdl.Arrays) (hD : m.ctx.Distinct) (hE : m.NoEmptyNorm)
    (x : Fin n → ℝ) (θ : Fin P → ℝ) (d : Mdl.DataV P) (N : Nat → ℝ)
    (hN : m.totBinExp A x θ = .ok N) (vals : Dict ℝ) (hv : m.ctx.realVals x = .ok vals)
    (hz : ∀ p ∈ m.exprs, ∀ pre num den, p.2 = Expr.prodRatio pre num den →
      ∀ k ∈ num ++ den, vals.get? k ≠ some 0) :
    ∃ H, m.hessian A x θ d = some H := by
  obtain ⟨vals', hx, hc, rfl⟩ := Mdl.tot_inv hN
  rw [hv] at hx
  have hx := Except.ok.inj hx
  subst hx
  have hz' : ∀ p ∈ m.ctx.exprs, p.2.factorsOk (Expr.look vals) := by
    rintro ⟨k, e⟩ hp
    obtain ⟨hs, hdep, hden, hval⟩ := ExprCtx.evalLoop_fix m.ctx.exprs (m.ctx.base x) vals
      (by rw [ExprCtx.base_keys]; exact hD) hv k e hp
    cases e with
    | prodRatio pre num den =>
      have hne : ∀ q ∈ num ++ den, Expr.look vals q ≠ 0 := by
        intro q hq h0
        obtain ⟨v, hv⟩ := (Dict.mem_keys_iff _ _).1 (hdep q hq).1
        have : v = 0 := by simpa [Expr.look, hv] using h0
        exact hz _ hp pre num den rfl q hq (by rw [hv, this])
      simp only [Expr.factorsOk]
      constructor <;>
      · rw [Ne, List.prod_eq_zero_iff]; intro hm
        obtain ⟨q, hq, h0⟩ := List.mem_map.1 hm
        exact hne q (by simp [hq]) h0
    | _ => trivial
  have hex : ∀ ch ∈ m.channels, ∀ smp ∈ ch.samples, ∃ H,
      smp.norm.hessian m.pois m.ctx.reals vals m.fuel = .ok H := by
    intro ch hch smp hm
    cases hn : smp.norm with
    | number v => exact ⟨0, rfl⟩
    | expr e =>
      obtain ⟨H, hH⟩ := ExprCtx.hess_exists m.ctx hD x vals hv hz' e
        (Mdl.norm_key hn (hE ch hch smp hm) (hc.value ch hch smp hm))
      simp only [ExprCtx.hessian, hv, bind_ok] at hH
      exact ⟨H, hH⟩
  obtain ⟨ne, hne, _⟩ := Mdl.nExp_ok A θ hv hc
  have hr := Mdl.stackRows_ok m (fun s => s.gradient m.pois m.ctx.reals vals m.fuel)
    (fun smp y i => y * m.normG x smp.norm i / smp.nominal_norm) hc.shape
    (fun ch h smp h' => Mdl.sample_gradient_ok hD hv hc hE h h')
  have hs := Mdl.stackRows_ok m (fun s => s.hessian m.pois m.ctx.reals vals m.fuel)
    (fun smp y i j => y * m.normH x smp.norm i j / smp.nominal_norm) hc.shape
    (fun ch h smp h' => by
      obtain ⟨K, hK⟩ := hex ch h smp h'
      obtain ⟨e, _⟩ := Mdl.norm_hess hD hv (hE ch h smp h') (hc.value ch h smp h') hK
      simp [Sample.hessian, hK, hc.norm0 ch h smp h', e])
  simp only [Mdl.hessian, Mdl.hessianCore, hv, bind_ok, hne, hr, hs]
  exact ⟨_, rfl⟩

/-- C16.  For any two parameter points with positive Poisson yields and the same dataset, the
difference of NLLs is the same with and without offset.  (Positive reference yields; symmetric
Gaussian inverse covariance.) -/
theorem c16_offset_cancels (m : Mdl n P) (A : Mdl.Arrays) (d : Mdl.DataV P) (N0 : Nat → ℝ)
    (hN0 : m.refTot A = .ok N0) (hp0 : ∀ b < m.nbinsPoisson, 0 < N0 b)
    (hs : ∀ i < m.nbinsGaussian, ∀ j < m.nbinsGaussian, m.poiHessian i j = m.poiHessian j i)
    (fl : Option ℝ) (nc : Bool)
    (x₁ x₂ : Fin n → ℝ) (θ₁ θ₂ : Fin P → ℝ) (N₁ N₂ : Nat → ℝ)
    (h₁ : m.totBinExp A x₁ θ₁ fl = .ok N₁) (h₂ : m.totBinExp A x₂ θ₂ fl = .ok N₂)
    (hp₁ : ∀ b < m.nbinsPoisson, 0 < N₁ b) (hp₂ : ∀ b < m.nbinsPoisson, 0 < N₂ b) :
    ∃ a₁ a₂ b₁ b₂ : ℝ,
      m.nll A x₁ θ₁ d false fl nc = .ok (.fin a₁) ∧ m.nll A x₂ θ₂ d false fl nc = .ok (.fin a₂) ∧
      m.nll A x₁ θ₁ d true fl nc = .ok (.fin b₁) ∧ m.nll A x₂ θ₂ d true fl nc = .ok (.fin b₂) ∧
      a₁ - a₂ = b₁ - b₂ := by
  refine ⟨_, _, _, _, Mdl.nll_ok h₁ hp₁, Mdl.nll_ok h₂ hp₂, Mdl.nll_off_ok h₁ hp₁ hN0 hp0,
    Mdl.nll_off_ok h₂ hp₂ hN0 hp0, ?_⟩
  rw [Mdl.nllValOff_eq hp₁ hp0 nc hs, Mdl.nllValOff_eq hp₂ hp0 nc hs]; ring

/-- C16: where a Poisson yield is not positive (and counts are non-negative), both are `+Inf`. -/
theorem c16_infinite (m : Mdl n P) (A : Mdl.Arrays) (d : Mdl.DataV P) (N0 : Nat → ℝ)
    (hN0 : m.refTot A = .ok N0) (hp0 : ∀ b < m.nbinsPoisson, 0 < N0 b)
    (hd : ∀ b < m.nbinsPoisson, 0 ≤ d.counts b) (fl : Option ℝ) (nc : Bool)
    (x : Fin n → ℝ) (θ : Fin P → ℝ) (N : Nat → ℝ) (h : m.totBinExp A x θ fl = .ok N) (b : Nat)
    (hb : b < m.nbinsPoisson) (hN : N b ≤ 0) (offset : Bool) :
    m.nll A x θ d offset fl nc = .ok .pinf := by
  cases offset
  · exact Mdl.nll_bad h hd hb hN
  · exact Mdl.nll_off_bad h hd hN0 hp0 hb hN

/-- Finding F06: when the reference yield of a bin is 0 (e.g. a signal-only bin, initial value 0 of the
signal strength) the NLL with offset is `-Inf` for any positive count, though the NLL without offset is
finite. -/
theorem c16_zero_reference_fails :
    ∃ (m : Mdl 1 0) (A : Mdl.Arrays) (d : Mdl.DataV 0) (x : Fin 1 → ℝ) (v : ℝ),
      m.ctx.Distinct ∧ m.nll A x 0 d false = .ok (.fin v) ∧ m.nll A x 0 d true = .ok .ninf := by
  let A : Mdl.Arrays := ⟨⟨1, fun _ => 0, fun _ => 0⟩, fun _ _ _ => 0⟩
  let m := Demo.one (.expr "mu") 0
  have hv : ∀ x, m.ctx.realVals x = .ok [("mu", x 0)] := by
    intro x; simp [ExprCtx.realVals, ExprCtx.evalLoop, ExprCtx.base, Mdl.ctx, Demo.one, m]
  have hsh : m.nbins = 1 ∧ m.nbinsPoisson = 1 ∧ m.maxSamples = 1 ∧ m.nbinsGaussian = 0 := by
    simp [Mdl.nbins, Mdl.nbinsPoisson, Mdl.maxSamples, Mdl.nbinsGaussian, Mdl.chanState, m, Demo.one,
      chanStep]
  have hc : ∀ x : Fin 1 → ℝ, m.Computable [("mu", x 0)] := by
    intro x
    refine ⟨?_, ?_, ?_⟩
    · intro s hs
      rw [hsh.2.2.1] at hs; rw [hsh.1]
      interval_cases s; simp [Mdl.cells, Channel.cells, m, Demo.one]
    · intro ch hc smp hm
      simp only [m, Demo.one, List.mem_singleton] at hc
      subst hc
      simp only [List.mem_singleton] at hm
      subst hm; simp
    · intro ch hc smp hm
      simp only [m, Demo.one, List.mem_singleton] at hc
      subst hc
      simp only [List.mem_singleton] at hm
      subst hm; simp [Norm.value, Dict.getItem, Dict.get?]
  have hN : ∀ x : Fin 1 → ℝ, m.totAt A [("mu", x 0)] 0 0 = x 0 := by
    intro x
    simp only [Mdl.totAt, hsh.2.2.1, Finset.sum_range_one]
    simp [Mdl.yieldAt, Mdl.cutKExp, Mdl.kExp, Mdl.cells, Channel.cells, m, Demo.one,
      Mdl.cellVal, Mdl.cellYield, Mdl.normVal, Expr.look, Dict.get?]
  have h0 : m.refTot A = .ok (m.totAt A [("mu", m.poiInit 0)] 0) := Mdl.tot_ok A 0 (hv _) (hc _)
  have hi : m.poiInit 0 = 0 := by simp [m, Demo.one]
  refine ⟨m, A, ⟨fun _ => 1, 0⟩, ![1], _, ?_, Mdl.nll_ok (Mdl.tot_ok A 0 (hv _) (hc _)) ?_, ?_⟩
  · simp [ExprCtx.Distinct, Mdl.ctx, m, Demo.one, Dict.keys]
  · intro b hb
    rw [hsh.2.1] at hb
    interval_cases b; rw [hN]; norm_num
  · have hq : ∀ u w, m.quad u w = 0 := by intro u w; simp [Mdl.quad, hsh.2.2.2]
    simp only [Mdl.nll, Mdl.tot_ok A 0 (hv ![1]) (hc ![1]), h0, bind_ok, Bool.not_true,
      Bool.false_eq_true, if_false, pure_ok, hsh.2.1, hq]
    have e1 := hN m.poiInit
    rw [hi] at e1
    have e2 : m.totAt A [("mu", 1)] 0 0 = 1 := hN ![1]
    simp [-Matrix.zero_empty, List.range_succ, Flt.sum, e2, Mdl.poissonTermOff, Flt.div, Flt.log, Flt.smul, Flt.neg, Flt.add,
      Flt.nanToInf, hi, e1]

/-- C17.  For the Asimov dataset of a parameter point (with positive Poisson yields), the NLL at that
point is finite and is at most the NLL at every other parameter point: either that one is `+Inf`, or it
is a number at least as large.  (The Gaussian inverse covariance is positive semi-definite; without the
offset option.) -/
theorem c17_asimov_minimum (m : Mdl n P) (A : Mdl.Arrays)
    (hH : ∀ u : Nat → ℝ, 0 ≤ ∑ i ∈ Finset.range m.nbinsGaussian,
      ∑ j ∈ Finset.range m.nbinsGaussian, u i * m.poiHessian i j * u j)
    (x₀ : Fin n → ℝ) (θ₀ : Fin P → ℝ) (d : Mdl.DataV P) (hd : m.generateAsimov A x₀ θ₀ = .ok d)
    (hp : ∀ b < m.nbinsPoisson, 0 < d.counts b) (nc : Bool) :
    ∃ v₀, m.nll A x₀ θ₀ d false none nc = .ok (.fin v₀) ∧
      ∀ x θ F, m.nll A x θ d false none nc = .ok F → F = .pinf ∨ ∃ v, F = .fin v ∧ v₀ ≤ v := by
  simp only [Mdl.generateAsimov] at hd
  obtain ⟨N0, h0, hd⟩ := bind_eq_ok.1 hd
  have hd := Except.ok.inj hd
  subst hd
  refine ⟨_, Mdl.nll_ok h0 hp, fun x θ F hF => ?_⟩
  have hF' := hF
  simp only [Mdl.nll] at hF'
  obtain ⟨N, hN, _⟩ := bind_eq_ok.1 hF'
  by_cases hpos : ∀ b < m.nbinsPoisson, 0 < N b
  · rw [Mdl.nll_ok hN hpos] at hF
    exact Or.inr ⟨_, (Except.ok.inj hF).symm, Mdl.asimov_min hp hpos hH nc⟩
  · push Not at hpos
    obtain ⟨b, hb, hle⟩ := hpos
    rw [Mdl.nll_bad hN (fun b hb => (hp b hb).le) hb hle] at hF
    exact Or.inl (Except.ok.inj hF).symm

/-- C17 with the default offset. -/
theorem c17_asimov_minimum_offset (m : Mdl n P) (A : Mdl.Arrays)
    (hH : ∀ u : Nat → ℝ, 0 ≤ ∑ i ∈ Finset.range m.nbinsGaussian,
      ∑ j ∈ Finset.range m.nbinsGaussian, u i * m.poiHessian i j * u j)
    (hs : ∀ i < m.nbinsGaussian, ∀ j < m.nbinsGaussian, m.poiHessian i j = m.poiHessian j i)
    (R : Nat → ℝ) (hR : m.refTot A = .ok R) (hR0 : ∀ b < m.nbinsPoisson, 0 < R b)
    (x₀ : Fin n → ℝ) (θ₀ : Fin P → ℝ) (d : Mdl.DataV P) (hd : m.generateAsimov A x₀ θ₀ = .ok d)
    (hp : ∀ b < m.nbinsPoisson, 0 < d.counts b) (nc : Bool) :
    ∃ v₀, m.nll A x₀ θ₀ d true none nc = .ok (.fin v₀) ∧
      ∀ x θ F, m.nll A x θ d true none nc = .ok F → F = .pinf ∨ ∃ v, F = .fin v ∧ v₀ ≤ v := by
  simp only [Mdl.generateAsimov] at hd
  obtain ⟨N0, h0, hd⟩ := bind_eq_ok.1 hd
  have hd := Except.ok.inj hd
  subst hd
  refine ⟨_, Mdl.nll_off_ok h0 hp hR hR0, fun x θ F hF => ?_⟩
  have hF' := hF
  simp only [Mdl.nll] at hF'
  obtain ⟨N, hN, _⟩ := bind_eq_ok.1 hF'
  by_cases hpos : ∀ b < m.nbinsPoisson, 0 < N b
  · rw [Mdl.nll_off_ok hN hpos hR hR0] at hF
    refine Or.inr ⟨_, (Except.ok.inj hF).symm, ?_⟩
    rw [Mdl.nllValOff_eq hp hR0 nc hs, Mdl.nllValOff_eq hpos hR0 nc hs]
    have := Mdl.asimov_min (θ := θ) (θ0 := θ₀) hp hpos hH nc
    linarith
  · push Not at hpos
    obtain ⟨b, hb, hle⟩ := hpos
    rw [Mdl.nll_off_bad hN (fun b hb => (hp b hb).le) hR hR0 hb hle] at hF
    exact Or.inl (Except.ok.inj hF).symm

/-- Non-vacuity of C14–C17: the demo model (two bins, two samples, one NP with impacts) meets the
hypotheses. -/
example : ∃ (m : Mdl 1 1) (A : Mdl.Arrays) (N N0 : Nat → ℝ) (d : Mdl.DataV 1),
    m.setInternal = .ok A ∧ m.ctx.Distinct ∧ m.NoEmptyNorm ∧ m.nbinsGaussian = 0 ∧ m.nbins = 2 ∧
    m.totBinExp A ![3] 0 = .ok N ∧ (∀ b < m.nbins, 0 < N b) ∧ m.refTot A = .ok N0 ∧
    (∀ b < m.nbins, 0 < N0 b) ∧ m.generateAsimov A ![3] 0 = .ok d ∧
    (∀ b < m.nbinsPoisson, 0 < d.counts b) := by
  obtain ⟨A, hA⟩ := Demo.internal
  obtain ⟨N, hN, h0, h1⟩ := Demo.tot true A ![3]
  obtain ⟨N', hN', h0', h1'⟩ := Demo.tot true A ![1]
  have hpos : ∀ b < 2, 0 < N b := by
    intro b hb
    interval_cases b
    · rw [h0]; norm_num
    · rw [h1]; norm_num
  refine ⟨Demo.mdl false true, A, N, N', ⟨N, 0⟩, hA, Demo.distinct _ _, Demo.noEmpty _ _,
    (Demo.shapes _ _).2.2.1, (Demo.shapes _ _).1, hN, ?_, hN', ?_, ?_, ?_⟩
  · rw [(Demo.shapes _ _).1]; exact hpos
  · rw [(Demo.shapes _ _).1]
    intro b hb
    interval_cases b
    · rw [h0']; norm_num
    · rw [h1']; norm_num
  · simp only [Mdl.generateAsimov, hN, bind_ok, pure_ok]
  · rw [(Demo.shapes _ _).2.1]; exact hpos

/-! ## C53: a floor on the yields -/

/-- C53: with a floor, the yield of each Poisson bin is the larger of the floor and the yield without
floor, and the yields of the Gaussian bins are unchanged; both fail together. -/
theorem c53_floor (m : Mdl n P) (A : Mdl.Arrays) (x : Fin n → ℝ) (θ : Fin P → ℝ) (f : ℝ) :
    (∀ N, m.totBinExp A x θ = .ok N → ∃ N', m.totBinExp A x θ (some f) = .ok N' ∧
      (∀ b < m.nbinsPoisson, f ≤ N' b ∧ N b ≤ N' b ∧ (N' b = f ∨ N' b = N b)) ∧
      (∀ b, m.nbinsPoisson ≤ b → N' b = N b)) ∧
    (∀ e, m.totBinExp A x θ = .error e → m.totBinExp A x θ (some f) = .error e) := by
  simp only [Mdl.totBinExp]
  cases h : m.nExp A x θ with
  | error e => simp
  | ok ne =>
    refine ⟨?_, by simp⟩
    intro N hN
    simp only [bind_ok, pure_ok, Except.ok.injEq] at hN
    subst hN
    refine ⟨_, rfl, ?_, ?_⟩
    · intro b hb
      simp only [hb, if_true]
      exact ⟨le_max_right _ _, le_max_left _ _, (max_choice _ _).symm⟩
    · intro b hb
      simp [Nat.not_lt.2 hb]

/-- C53: so with a positive floor the NLL without offset is a finite number wherever the yields can
be computed. -/
theorem c53_floor_finite (m : Mdl n P) (A : Mdl.Arrays) (x : Fin n → ℝ) (θ : Fin P → ℝ)
    (d : Mdl.DataV P) (f : ℝ) (hf : 0 < f) (N : Nat → ℝ) (hN : m.totBinExp A x θ = .ok N) (nc : Bool) :
    ∃ v : ℝ, m.nll A x θ d false (some f) nc = .ok (.fin v) := by
  obtain ⟨N', h1, h2, _⟩ := (c53_floor m A x θ f).1 N hN
  exact ⟨_, Mdl.nll_ok h1 (fun b hb => lt_of_lt_of_le hf (h2 b hb).1)⟩

end Verif.Props
