import Verif.Lemmas.Core
import Verif.Lemmas.HasGrad
/-! Derivatives of yields and of the NLL with respect to the POIs. -/
namespace Verif
namespace Mdl
open Filter Topology
variable {n P : Nat}

/-- Normalisation as a function of the POIs. -/
noncomputable def normF (m : Mdl n P) (z : Fin n → ℝ) : Norm → ℝ
  | .number v => v
  | .expr e => m.ctx.valOf z e

/-- Its gradient. -/
noncomputable def normG (m : Mdl n P) (z : Fin n → ℝ) : Norm → Fin n → ℝ
  | .number _ => 0
  | .expr e => m.ctx.gradOf z e

/-- Its Hessian. -/
noncomputable def normH (m : Mdl n P) (z : Fin n → ℝ) : Norm → Fin n → Fin n → ℝ
  | .number _ => 0
  | .expr e => match m.ctx.hessian z e with
    | .ok h => h
    | .error _ => 0

/-- No sample has the empty string as its normalisation. -/
def NoEmptyNorm (m : Mdl n P) : Prop :=
  ∀ ch ∈ m.channels, ∀ smp ∈ ch.samples, smp.norm ≠ .expr ""

theorem mem_of_cell {m : Mdl n P} {s b : Nat} {smp : Sample} {y : ℝ}
    (h : (m.cells s).getD b none = some (smp, y)) : ∃ ch ∈ m.channels, smp ∈ ch.samples := by
  have : some (smp, y) ∈ m.cells s := by
    rw [List.getD_eq_getElem?_getD] at h
    cases h' : (m.cells s)[b]? with
    | none => rw [h'] at h; simp at h
    | some v => rw [h'] at h; simp only [Option.getD_some] at h; subst h; exact List.mem_of_getElem? h'
  simp only [cells, Channel.cells, List.mem_flatMap] at this
  obtain ⟨ch, hc, hm⟩ := this
  refine ⟨ch, hc, ?_⟩
  cases hs : ch.samples[s]? with
  | none => rw [hs] at hm; simp at hm
  | some smp' =>
    rw [hs] at hm
    simp only [List.mem_map, Option.some.injEq, Prod.mk.injEq] at hm
    obtain ⟨_, _, rfl, _⟩ := hm
    exact List.mem_of_getElem? hs

variable {m : Mdl n P} {x : Fin n → ℝ} {vals : Dict ℝ}

theorem normVal_eq (hx : m.ctx.realVals x = .ok vals) {nm : Norm} (hne : nm ≠ .expr "") :
    normVal vals nm = m.normF x nm := by
  cases nm with
  | number v => rfl
  | expr e =>
    have : e ≠ "" := fun h => hne (by rw [h])
    simp [normVal, normF, this, ExprCtx.valOf, hx]

theorem norm_key {nm : Norm} {e : String} (he : nm = .expr e) (hne : nm ≠ .expr "")
    (hv : ∃ v, nm.value vals = .ok v) : e ∈ vals.keys := by
  subst he
  have : e ≠ "" := fun h => hne (by rw [h])
  obtain ⟨v, hv⟩ := hv
  simp only [Norm.value, this, if_false] at hv
  exact (Dict.mem_keys_iff _ _).2 ⟨v, Dict.getItem_ok.1 hv⟩

theorem norm_grad (hD : m.ctx.Distinct) (hx : m.ctx.realVals x = .ok vals) {nm : Norm}
    (hne : nm ≠ .expr "") (hv : ∃ v, nm.value vals = .ok v) :
    nm.gradient m.pois m.ctx.reals vals m.fuel = .ok (m.normG x nm) ∧
      HasGrad (fun z => m.normF z nm) (m.normG x nm) x := by
  cases nm with
  | number v => exact ⟨rfl, hasGrad_const v x⟩
  | expr e =>
    have he := norm_key rfl hne hv
    obtain ⟨g, hg, hgr⟩ := (ExprCtx.grad_main m.ctx.pois m.ctx.nps m.ctx.exprs x hD vals hx).2 e he
    have hg : m.ctx.gradient x e = .ok g := hg
    have h1 : m.ctx.gradOf x e = g := by simp [ExprCtx.gradOf, hg]
    simp only [normG, h1, normF]
    refine ⟨?_, hgr⟩
    simp only [ExprCtx.gradient, hx, bind_ok] at hg
    exact hg

theorem norm_hess (hD : m.ctx.Distinct) (hx : m.ctx.realVals x = .ok vals) {nm : Norm}
    (hne : nm ≠ .expr "") (hv : ∃ v, nm.value vals = .ok v)
    {H} (hH : nm.hessian m.pois m.ctx.reals vals m.fuel = .ok H) :
    H = m.normH x nm ∧ (∀ j, HasGrad (fun z => m.normG z nm j) (fun i => H i j) x) ∧
      ∀ i j, H i j = H j i := by
  cases nm with
  | number v =>
    have : H = 0 := (Except.ok.inj hH).symm
    subst this
    exact ⟨rfl, fun j => hasGrad_const 0 x, fun _ _ => rfl⟩
  | expr e =>
    have he := norm_key rfl hne hv
    have hH : Expr.hessian m.pois m.ctx.reals vals m.fuel e = .ok H := hH
    have h2 : m.ctx.hessian x e = .ok H := by simp only [ExprCtx.hessian, hx, bind_ok]; exact hH
    refine ⟨by simp [normH, h2], fun j => ?_, Expr.hessian_symm _ _ _ _ _ H hH⟩
    exact ExprCtx.hess_main m.ctx hD x vals hx _ e he H hH j

/-- Total yield of bin `b` as a function of the POIs. -/
noncomputable def Nf (m : Mdl n P) (A : Arrays) (θ : Fin P → ℝ) (b : Nat) (z : Fin n → ℝ) : ℝ :=
  ∑ s ∈ Finset.range m.maxSamples,
    cellVal (fun smp y => m.normF z smp.norm / smp.nominal_norm * y) ((m.cells s).getD b none)
      * m.cutKExp A θ s b

/-- Its gradient. -/
noncomputable def Gf (m : Mdl n P) (A : Arrays) (θ : Fin P → ℝ) (b : Nat) (z : Fin n → ℝ)
    (i : Fin n) : ℝ :=
  ∑ s ∈ Finset.range m.maxSamples,
    cellVal (fun smp y => y * m.normG z smp.norm i / smp.nominal_norm) ((m.cells s).getD b none)
      * m.cutKExp A θ s b

/-- Its Hessian. -/
noncomputable def Hf (m : Mdl n P) (A : Arrays) (θ : Fin P → ℝ) (b : Nat) (z : Fin n → ℝ)
    (i j : Fin n) : ℝ :=
  ∑ s ∈ Finset.range m.maxSamples,
    cellVal (fun smp y => y * m.normH z smp.norm i j / smp.nominal_norm) ((m.cells s).getD b none)
      * m.cutKExp A θ s b

theorem totAt_eq_Nf (hx : m.ctx.realVals x = .ok vals) (hE : m.NoEmptyNorm) (A : Arrays)
    (θ : Fin P → ℝ) (b : Nat) : m.totAt A vals θ b = m.Nf A θ b x := by
  refine Finset.sum_congr rfl (fun s _ => ?_)
  simp only [yieldAt]
  cases h : (m.cells s).getD b none with
  | none => rfl
  | some q =>
    obtain ⟨smp, y⟩ := q
    obtain ⟨ch, hc, hm⟩ := mem_of_cell h
    simp only [cellVal, Option.elim, cellYield, normVal_eq hx (hE ch hc smp hm)]

theorem Nf_hasGrad (hD : m.ctx.Distinct) (hx : m.ctx.realVals x = .ok vals)
    (hc : m.Computable vals) (hE : m.NoEmptyNorm) (A : Arrays) (θ : Fin P → ℝ) (b : Nat) :
    HasGrad (m.Nf A θ b) (m.Gf A θ b x) x := by
  refine HasGrad.finset_sum _ (fun s z => _) (fun s i => _) (fun s _ => ?_)
  cases h : (m.cells s).getD b none with
  | none => simp only [cellVal, Option.elim, zero_mul]; exact hasGrad_const (0 : ℝ) x
  | some q =>
    obtain ⟨smp, y⟩ := q
    obtain ⟨ch, hch, hm⟩ := mem_of_cell h
    have := ((norm_grad hD hx (hE ch hch smp hm) (hc.value ch hch smp hm)).2).const_mul
      (y / smp.nominal_norm * m.cutKExp A θ s b)
    simp only [cellVal, Option.elim]
    convert this using 2
    · ring
    · ring

theorem Gf_hasGrad (hD : m.ctx.Distinct) (hx : m.ctx.realVals x = .ok vals)
    (hc : m.Computable vals) (hE : m.NoEmptyNorm) (A : Arrays) (θ : Fin P → ℝ) (b : Nat)
    (hH : ∀ ch ∈ m.channels, ∀ smp ∈ ch.samples, ∃ H,
      smp.norm.hessian m.pois m.ctx.reals vals m.fuel = .ok H) (j : Fin n) :
    HasGrad (fun z => m.Gf A θ b z j) (fun i => m.Hf A θ b x i j) x := by
  refine HasGrad.finset_sum _ (fun s z => _) (fun s i => _) (fun s _ => ?_)
  cases h : (m.cells s).getD b none with
  | none => simp only [cellVal, Option.elim, zero_mul]; exact hasGrad_const (0 : ℝ) x
  | some q =>
    obtain ⟨smp, y⟩ := q
    obtain ⟨ch, hch, hm⟩ := mem_of_cell h
    obtain ⟨H, hHs⟩ := hH ch hch smp hm
    obtain ⟨e, h2, _⟩ := norm_hess hD hx (hE ch hch smp hm) (hc.value ch hch smp hm) hHs
    have := (h2 j).const_mul (y / smp.nominal_norm * m.cutKExp A θ s b)
    simp only [cellVal, Option.elim, ← e]
    convert this using 2
    · ring
    · ring

theorem Hf_symm (hD : m.ctx.Distinct) (hx : m.ctx.realVals x = .ok vals)
    (hc : m.Computable vals) (hE : m.NoEmptyNorm) (A : Arrays) (θ : Fin P → ℝ) (b : Nat)
    (hH : ∀ ch ∈ m.channels, ∀ smp ∈ ch.samples, ∃ H,
      smp.norm.hessian m.pois m.ctx.reals vals m.fuel = .ok H) (i j : Fin n) :
    m.Hf A θ b x i j = m.Hf A θ b x j i := by
  refine Finset.sum_congr rfl (fun s _ => ?_)
  cases h : (m.cells s).getD b none with
  | none => rfl
  | some q =>
    obtain ⟨smp, y⟩ := q
    obtain ⟨ch, hch, hm⟩ := mem_of_cell h
    obtain ⟨H, hHs⟩ := hH ch hch smp hm
    obtain ⟨e, _, h3⟩ := norm_hess hD hx (hE ch hch smp hm) (hc.value ch hch smp hm) hHs
    simp only [cellVal, Option.elim, ← e, h3 i j]

/-- Everything stays computable near a computable point. -/
theorem eventually_computable (hD : m.ctx.Distinct) (hx : m.ctx.realVals x = .ok vals)
    (hc : m.Computable vals) :
    ∀ᶠ z in 𝓝 x, ∃ vz, m.ctx.realVals z = .ok vz ∧ m.Computable vz := by
  filter_upwards [(ExprCtx.grad_main m.ctx.pois m.ctx.nps m.ctx.exprs x hD vals hx).1] with z ⟨vz, hz⟩
  have hz : m.ctx.realVals z = .ok vz := hz
  refine ⟨vz, hz, hc.shape, hc.norm0, fun ch h smp h' => ?_⟩
  obtain ⟨v, hv⟩ := hc.value ch h smp h'
  cases hn : smp.norm with
  | number w => exact ⟨w, rfl⟩
  | expr e =>
    rw [hn] at hv
    simp only [Norm.value] at hv ⊢
    split_ifs at hv ⊢ with he
    · exact ⟨1, rfl⟩
    · have : e ∈ vals.keys := (Dict.mem_keys_iff _ _).2 ⟨v, Dict.getItem_ok.1 hv⟩
      have : e ∈ vz.keys := by rwa [ExprCtx.realVals_keys hD hz, ← ExprCtx.realVals_keys hD hx]
      obtain ⟨w, hw⟩ := (Dict.mem_keys_iff _ _).1 this
      exact ⟨w, Dict.getItem_ok.2 hw⟩

theorem sample_gradient_ok (hD : m.ctx.Distinct) (hx : m.ctx.realVals x = .ok vals)
    (hc : m.Computable vals) (hE : m.NoEmptyNorm) {ch} (h : ch ∈ m.channels) {smp}
    (h' : smp ∈ ch.samples) :
    smp.gradient m.pois m.ctx.reals vals m.fuel =
      .ok (smp.nominal_yields.map (fun y i => y * m.normG x smp.norm i / smp.nominal_norm)) := by
  simp [Sample.gradient, (norm_grad hD hx (hE ch h smp h') (hc.value ch h smp h')).1,
    hc.norm0 ch h smp h']

theorem cellVal_apply {F : Sample → ℝ → Fin n → ℝ} (o : Option (Sample × ℝ)) (i : Fin n) :
    cellVal F o i = cellVal (fun s y => F s y i) o := by
  cases o <;> rfl

theorem cellVal_apply₂ {F : Sample → ℝ → Fin n → Fin n → ℝ} (o : Option (Sample × ℝ)) (i j : Fin n) :
    cellVal F o i j = cellVal (fun s y => F s y i j) o := by
  cases o <;> rfl

theorem gradientCore_ok (hD : m.ctx.Distinct) (hx : m.ctx.realVals x = .ok vals)
    (hc : m.Computable vals) (hE : m.NoEmptyNorm) (A : Arrays) (θ : Fin P → ℝ) (d : DataV P) :
    m.gradientCore A x θ d = .ok (fun i => ∑ b ∈ Finset.range m.nbins,
      (m.Gf A θ b x i - divOr0 (m.Gf A θ b x i) (m.Nf A θ b x) * d.counts b)) := by
  obtain ⟨ne, hne, hne'⟩ := nExp_ok A θ hx hc
  have hr := stackRows_ok m (fun s => s.gradient m.pois m.ctx.reals vals m.fuel)
    (fun smp y i => y * m.normG x smp.norm i / smp.nominal_norm) hc.shape
    (fun ch h smp h' => sample_gradient_ok hD hx hc hE h h')
  simp only [gradientCore, hx, bind_ok, hne, hr, pure_ok]
  congr 1; funext i
  refine Finset.sum_congr rfl (fun b _ => ?_)
  have hN : ∑ s ∈ Finset.range m.maxSamples, ne s b = m.Nf A θ b x := by
    rw [← totAt_eq_Nf hx hE]
    exact Finset.sum_congr rfl (fun s hs => hne' s (Finset.mem_range.1 hs) b)
  have hG : (∑ s ∈ Finset.range m.maxSamples,
      (((List.range m.maxSamples).map fun s => (m.cells s).map (cellVal
        (fun smp y i => y * m.normG x smp.norm i / smp.nominal_norm))).getD s []).getD b 0 i
        * m.cutKExp A θ s b) = m.Gf A θ b x i := by
    refine Finset.sum_congr rfl (fun s hs => ?_)
    rw [rows_getD m _ s b (Finset.mem_range.1 hs), cellVal_apply]
  rw [hN, hG]

theorem hessianCore_inv (hD : m.ctx.Distinct) (hx : m.ctx.realVals x = .ok vals)
    (hc : m.Computable vals) (hE : m.NoEmptyNorm) {A : Arrays} {θ : Fin P → ℝ} {d : DataV P} {H}
    (h : m.hessianCore A x θ d = .ok H) :
    (∀ ch ∈ m.channels, ∀ smp ∈ ch.samples, ∃ H,
      smp.norm.hessian m.pois m.ctx.reals vals m.fuel = .ok H) ∧
    H = (fun i j => ∑ b ∈ Finset.range m.nbins, (m.Hf A θ b x i j -
      (divOr0 (m.Hf A θ b x i j) (m.Nf A θ b x) -
        divOr0 (m.Gf A θ b x i) (m.Nf A θ b x) * divOr0 (m.Gf A θ b x j) (m.Nf A θ b x))
        * d.counts b)) := by
  obtain ⟨ne, hne, hne'⟩ := nExp_ok A θ hx hc
  have hr := stackRows_ok m (fun s => s.gradient m.pois m.ctx.reals vals m.fuel)
    (fun smp y i => y * m.normG x smp.norm i / smp.nominal_norm) hc.shape
    (fun ch h smp h' => sample_gradient_ok hD hx hc hE h h')
  simp only [hessianCore, hx, bind_ok, hne, hr] at h
  obtain ⟨hrows, hh, h⟩ := bind_eq_ok.1 h
  have hH : ∀ ch ∈ m.channels, ∀ smp ∈ ch.samples, ∃ H,
      smp.norm.hessian m.pois m.ctx.reals vals m.fuel = .ok H := by
    intro ch hch smp hm
    obtain ⟨r, hr⟩ := stackRows_inv m _ hh ch hch smp hm
    obtain ⟨H, hH, _⟩ := bind_eq_ok.1 hr
    exact ⟨H, hH⟩
  refine ⟨hH, ?_⟩
  have hs := stackRows_ok m (fun s => s.hessian m.pois m.ctx.reals vals m.fuel)
    (fun smp y i j => y * m.normH x smp.norm i j / smp.nominal_norm) hc.shape
    (fun ch h smp h' => by
      obtain ⟨K, hK⟩ := hH ch h smp h'
      obtain ⟨e, _⟩ := norm_hess hD hx (hE ch h smp h') (hc.value ch h smp h') hK
      simp [Sample.hessian, hK, hc.norm0 ch h smp h', e])
  rw [hs] at hh
  have hh := Except.ok.inj hh
  subst hh
  rw [← Except.ok.inj h]
  funext i j
  refine Finset.sum_congr rfl (fun b _ => ?_)
  have hN : ∑ s ∈ Finset.range m.maxSamples, ne s b = m.Nf A θ b x := by
    rw [← totAt_eq_Nf hx hE]
    exact Finset.sum_congr rfl (fun s hs => hne' s (Finset.mem_range.1 hs) b)
  have hG : ∀ i, (∑ s ∈ Finset.range m.maxSamples,
      (((List.range m.maxSamples).map fun s => (m.cells s).map (cellVal
        (fun smp y i => y * m.normG x smp.norm i / smp.nominal_norm))).getD s []).getD b 0 i
        * m.cutKExp A θ s b) = m.Gf A θ b x i := by
    intro i
    refine Finset.sum_congr rfl (fun s hs => ?_)
    rw [rows_getD m _ s b (Finset.mem_range.1 hs), cellVal_apply]
  have hHf : (∑ s ∈ Finset.range m.maxSamples,
      (((List.range m.maxSamples).map fun s => (m.cells s).map (cellVal
        (fun smp y i j => y * m.normH x smp.norm i j / smp.nominal_norm))).getD s []).getD b 0 i j
        * m.cutKExp A θ s b) = m.Hf A θ b x i j := by
    refine Finset.sum_congr rfl (fun s hs => ?_)
    rw [rows_getD m _ s b (Finset.mem_range.1 hs), cellVal_apply₂]
  rw [hN, hG, hG, hHf]

theorem divOr0_of_ne {a N : ℝ} (h : N ≠ 0) : divOr0 a N = a / N := by simp [divOr0, h]

/-- Derivative of the Poisson sum. -/
theorem poisson_hasGrad {N : Nat → (Fin n → ℝ) → ℝ} {G : Nat → Fin n → ℝ} {c : Nat → ℝ} {k : Nat}
    (hg : ∀ b < k, HasGrad (N b) (G b) x) (hp : ∀ b < k, 0 < N b x) :
    HasGrad (fun z => ∑ b ∈ Finset.range k, (N b z - c b * Real.log (N b z)))
      (fun i => ∑ b ∈ Finset.range k, (G b i - divOr0 (G b i) (N b x) * c b)) x := by
  refine HasGrad.finset_sum _ (fun b z => N b z - c b * Real.log (N b z))
    (fun b i => G b i - divOr0 (G b i) (N b x) * c b) (fun b hb => ?_)
  have hb := Finset.mem_range.1 hb
  have h1 := (hg b hb).sub (((hg b hb).log (hp b hb).ne').const_mul (c b))
  convert h1 using 2
  rw [divOr0_of_ne (hp b hb).ne']
  field_simp

theorem poisson_grad_hasGrad {N : Nat → (Fin n → ℝ) → ℝ} {G : Nat → (Fin n → ℝ) → Fin n → ℝ}
    {H : Nat → Fin n → Fin n → ℝ} {c : Nat → ℝ} {k : Nat} {j : Fin n}
    (hg : ∀ b < k, HasGrad (N b) (G b x) x) (hp : ∀ b < k, 0 < N b x)
    (hh : ∀ b < k, HasGrad (fun z => G b z j) (fun i => H b i j) x) :
    HasGrad (fun z => ∑ b ∈ Finset.range k, (G b z j - divOr0 (G b z j) (N b z) * c b))
      (fun i => ∑ b ∈ Finset.range k, (H b i j - (divOr0 (H b i j) (N b x) -
        divOr0 (G b x i) (N b x) * divOr0 (G b x j) (N b x)) * c b)) x := by
  refine HasGrad.finset_sum _ (fun b z => G b z j - divOr0 (G b z j) (N b z) * c b)
    (fun b i => _) (fun b hb => ?_)
  have hb := Finset.mem_range.1 hb
  have hpb := hp b hb
  have h1 := (hh b hb).sub (((hh b hb).div (hg b hb) hpb.ne').const_mul (c b))
  have h2 : HasGrad (fun z => G b z j - divOr0 (G b z j) (N b z) * c b)
      (fun i => H b i j - c b * ((H b i j * N b x - G b x j * G b x i) / N b x ^ 2)) x := by
    refine h1.congr ?_
    filter_upwards [(hg b hb).continuousAt.eventually (lt_mem_nhds hpb)] with z hz
    rw [divOr0_of_ne (ne_of_gt hz)]; ring
  convert h2 using 2
  rw [divOr0_of_ne hpb.ne', divOr0_of_ne hpb.ne', divOr0_of_ne hpb.ne']
  field_simp

end Mdl
end Verif
