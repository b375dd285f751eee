import Verif.Spec.Limits
import Verif.Lemmas.ComposeMdl
/-! Helper lemmas: the profiled NLL of a Gaussian model with affine yields. -/
namespace Verif.Lim
open Verif.Spec

/-- Minimum over `δ` of a quadratic function of `(t, δ)`. -/
theorem quadratic_profile {V : Type} [AddCommGroup V] [Module ℝ V] (g q L : ℝ → V → ℝ) (θ0 : V) (ℓ K : ℝ)
    (hexp : ∀ t δ, g t (θ0 + δ) = g 0 θ0 + L t δ + q t δ)
    (hL1 : ∀ ε δ, L 0 (ε • δ) = ε * L 0 δ) (hL2 : ∀ t δ, L t δ = t * ℓ + L 0 δ)
    (hq : ∀ ε t δ, q (ε * t) (ε • δ) = ε ^ 2 * q t δ) (hq0 : ∀ t δ, 0 ≤ q t δ)
    (hmin : ∀ θ, g 0 θ0 ≤ g 0 θ) (hK : IsLeast (Set.range (q 1)) K) (t : ℝ) :
    IsLeast (Set.range (g t)) (g 0 θ0 + ℓ * t + K * t ^ 2) := by
  have hL0 : ∀ δ, L 0 δ = 0 := by
    intro δ
    have key : ∀ ε : ℝ, 0 ≤ ε * L 0 δ + ε ^ 2 * q 0 δ := by
      intro ε
      have h1 := hmin (θ0 + ε • δ)
      rw [hexp, hL1] at h1
      have h2 := hq ε 0 δ
      rw [mul_zero] at h2
      rw [h2] at h1
      linarith
    by_contra hne
    have hb := hq0 0 δ
    have h3 := key (-(L 0 δ) / (2 * (q 0 δ + 1)))
    have h4 : -(L 0 δ) / (2 * (q 0 δ + 1)) * L 0 δ + (-(L 0 δ) / (2 * (q 0 δ + 1))) ^ 2 * q 0 δ =
        -(L 0 δ) ^ 2 * (q 0 δ + 2) / (4 * (q 0 δ + 1) ^ 2) := by field_simp; ring
    rw [h4] at h3
    have h5 : 0 < (L 0 δ) ^ 2 * (q 0 δ + 2) / (4 * (q 0 δ + 1) ^ 2) := by positivity
    rw [neg_mul, neg_div] at h3
    linarith
  have hg : ∀ δ, g t (θ0 + δ) = g 0 θ0 + ℓ * t + q t δ := by
    intro δ
    rw [hexp, hL2, hL0]; ring
  obtain ⟨⟨δ1, e1⟩, hlow⟩ := hK
  constructor
  · refine ⟨θ0 + t • δ1, ?_⟩
    rw [hg]
    have := hq t 1 δ1
    rw [mul_one] at this
    rw [this, e1]; ring
  · rintro _ ⟨θ, rfl⟩
    have e : θ = θ0 + (θ - θ0) := by abel
    rw [e, hg]
    have : K * t ^ 2 ≤ q t (θ - θ0) := by
      by_cases ht : t = 0
      · rw [ht]; simpa using hq0 0 (θ - θ0)
      · have h1 := hq t 1 ((1 / t) • (θ - θ0))
        rw [mul_one, smul_smul, mul_one_div_cancel ht, one_smul] at h1
        rw [h1]
        have h2 := hlow ⟨(1 / t) • (θ - θ0), rfl⟩
        nlinarith [sq_nonneg t]
    linarith

variable {P : Nat}

/-- Change of the yields. -/
noncomputable def dY (s : Nat → ℝ) (c : Nat → Fin P → ℝ) (t : ℝ) (δ : Fin P → ℝ) : Nat → ℝ :=
  fun b => s b * t + ∑ p, c b p * δ p

/-- Quadratic part of the NLL. -/
noncomputable def qF (m : Mdl 1 P) (s : Nat → ℝ) (c : Nat → Fin P → ℝ) (t : ℝ) (δ : Fin P → ℝ) : ℝ :=
  (1 / 2) * m.bil (dY s c t δ) (dY s c t δ) + (1 / 2) * ∑ p, (m.nps p).constraintWeight * (δ p * δ p)

/-- The NLL up to its offset. -/
noncomputable def gF (m : Mdl 1 P) (a s : Nat → ℝ) (c : Nat → Fin P → ℝ) (d : Mdl.DataV P) (x : ℝ)
    (θ : Fin P → ℝ) : ℝ :=
  (1 / 2) * m.bil (fun b => a b + dY s c x θ b - d.counts b) (fun b => a b + dY s c x θ b - d.counts b) +
    (1 / 2) * ∑ p, (m.nps p).constraintWeight * ((θ p - d.aux_obs p) * (θ p - d.aux_obs p))

/-- Linear part of the NLL. -/
noncomputable def lF (m : Mdl 1 P) (a s : Nat → ℝ) (c : Nat → Fin P → ℝ) (d : Mdl.DataV P) (x : ℝ)
    (θ : Fin P → ℝ) (t : ℝ) (δ : Fin P → ℝ) : ℝ :=
  m.bil (dY s c t δ) (fun b => a b + dY s c x θ b - d.counts b) +
    ∑ p, (m.nps p).constraintWeight * (θ p - d.aux_obs p) * δ p

theorem dY_add (s : Nat → ℝ) (c : Nat → Fin P → ℝ) (t t' : ℝ) (δ δ' : Fin P → ℝ) (b : Nat) :
    dY s c (t + t') (δ + δ') b = dY s c t δ b + dY s c t' δ' b := by
  simp only [dY, Pi.add_apply, mul_add, Finset.sum_add_distrib]; ring

theorem dY_smul (s : Nat → ℝ) (c : Nat → Fin P → ℝ) (e t : ℝ) (δ : Fin P → ℝ) (b : Nat) :
    dY s c (e * t) (e • δ) b = e * dY s c t δ b := by
  simp only [dY, Pi.smul_apply, smul_eq_mul, mul_add, Finset.mul_sum]
  congr 1
  · ring
  · exact Finset.sum_congr rfl (fun p _ => by ring)

theorem bil_smul_left (m : Mdl 1 P) (e : ℝ) (u v : Nat → ℝ) :
    m.bil (fun b => e * u b) v = e * m.bil u v := by
  simp only [Mdl.bil, Finset.mul_sum]
  exact Finset.sum_congr rfl (fun i _ => Finset.sum_congr rfl (fun j _ => by ring))

theorem bil_smul_sq (m : Mdl 1 P) (e : ℝ) (u : Nat → ℝ) :
    m.bil (fun b => e * u b) (fun b => e * u b) = e ^ 2 * m.bil u u := by
  simp only [Mdl.bil, Finset.mul_sum]
  exact Finset.sum_congr rfl (fun i _ => Finset.sum_congr rfl (fun j _ => by ring))

theorem bil_add_left (m : Mdl 1 P) (u w v : Nat → ℝ) :
    m.bil (fun b => u b + w b) v = m.bil u v + m.bil w v := by
  simp only [Mdl.bil, ← Finset.sum_add_distrib]
  exact Finset.sum_congr rfl (fun i _ => Finset.sum_congr rfl (fun j _ => by ring))

theorem qF_smul (m : Mdl 1 P) (s : Nat → ℝ) (c : Nat → Fin P → ℝ) (e t : ℝ) (δ : Fin P → ℝ) :
    qF m s c (e * t) (e • δ) = e ^ 2 * qF m s c t δ := by
  have h : dY s c (e * t) (e • δ) = fun b => e * dY s c t δ b := funext (dY_smul s c e t δ)
  simp only [qF, h, bil_smul_sq, Pi.smul_apply, smul_eq_mul, mul_add, Finset.mul_sum]
  congr 1
  · ring
  · exact Finset.sum_congr rfl (fun p _ => by ring)

theorem weight_nonneg (p : NP ℝ) : 0 ≤ p.constraintWeight := by
  unfold NP.constraintWeight
  split <;> positivity

theorem qF_nonneg (m : Mdl 1 P) (hH : m.HPsd) (s : Nat → ℝ) (c : Nat → Fin P → ℝ) (t : ℝ)
    (δ : Fin P → ℝ) : 0 ≤ qF m s c t δ := by
  have h1 : 0 ≤ m.bil (dY s c t δ) (dY s c t δ) := hH _
  have h2 : 0 ≤ ∑ p, (m.nps p).constraintWeight * (δ p * δ p) :=
    Finset.sum_nonneg (fun p _ => mul_nonneg (weight_nonneg _) (mul_self_nonneg _))
  unfold qF; linarith

theorem gF_exp (m : Mdl 1 P) (hS : m.HSymm) (a s : Nat → ℝ) (c : Nat → Fin P → ℝ) (d : Mdl.DataV P)
    (x t : ℝ) (θ δ : Fin P → ℝ) :
    gF m a s c d (x + t) (θ + δ) = gF m a s c d x θ + lF m a s c d x θ t δ + qF m s c t δ := by
  have h : (fun b => a b + dY s c (x + t) (θ + δ) b - d.counts b) =
      fun b => (fun b => a b + dY s c x θ b - d.counts b) b + dY s c t δ b := by
    funext b; rw [dY_add]; ring
  unfold gF lF qF
  rw [h, Mdl.bil_add_sq hS]
  have h2 : ∑ p, (m.nps p).constraintWeight * (((θ + δ) p - d.aux_obs p) * ((θ + δ) p - d.aux_obs p)) =
      ∑ p, (m.nps p).constraintWeight * ((θ p - d.aux_obs p) * (θ p - d.aux_obs p)) +
      2 * ∑ p, (m.nps p).constraintWeight * (θ p - d.aux_obs p) * δ p +
      ∑ p, (m.nps p).constraintWeight * (δ p * δ p) := by
    rw [Finset.mul_sum, ← Finset.sum_add_distrib, ← Finset.sum_add_distrib]
    exact Finset.sum_congr rfl (fun p _ => by rw [Pi.add_apply]; ring)
  rw [h2]; ring

theorem lF_smul (m : Mdl 1 P) (a s : Nat → ℝ) (c : Nat → Fin P → ℝ) (d : Mdl.DataV P)
    (x e t : ℝ) (θ δ : Fin P → ℝ) :
    lF m a s c d x θ (e * t) (e • δ) = e * lF m a s c d x θ t δ := by
  have h : dY s c (e * t) (e • δ) = fun b => e * dY s c t δ b := funext (dY_smul s c e t δ)
  unfold lF
  rw [h, bil_smul_left, mul_add, Finset.mul_sum]
  congr 1
  exact Finset.sum_congr rfl (fun p _ => by rw [Pi.smul_apply, smul_eq_mul]; ring)

theorem lF_split (m : Mdl 1 P) (a s : Nat → ℝ) (c : Nat → Fin P → ℝ) (d : Mdl.DataV P)
    (x t : ℝ) (θ δ : Fin P → ℝ) :
    lF m a s c d x θ t δ = t * lF m a s c d x θ 1 0 + lF m a s c d x θ 0 δ := by
  have h1 : dY s c t δ = fun b => dY s c t 0 b + dY s c 0 δ b := by
    funext b
    have := dY_add s c t 0 0 δ b
    simpa using this
  have h2 : lF m a s c d x θ t 0 = t * lF m a s c d x θ 1 0 := by
    have := lF_smul m a s c d x t 1 θ 0
    simpa using this
  rw [← h2]
  unfold lF
  rw [h1, bil_add_left]
  simp only [Pi.zero_apply, mul_zero, Finset.sum_const_zero, add_zero]
  ring

/-- The NLL with offset in a Gaussian model with affine yields. -/
theorem nll_gF {m : Mdl 1 P} {A : Mdl.Arrays} (hg : GaussianModel m A) {a s : Nat → ℝ}
    {c : Nat → Fin P → ℝ} (hy : YieldsAre m A a s c) {N0 : Nat → ℝ} (h0 : m.refTot A = .ok N0)
    (d : Mdl.DataV P) (x : ℝ) (θ : Fin P → ℝ) :
    m.nll A (fun _ => x) θ d = .ok (.fin (gF m a s c d x θ - m.offsetVal N0 d)) := by
  obtain ⟨N, hN, hNv⟩ := hy x θ
  have hp : ∀ (N : Nat → ℝ), ∀ b < m.nbinsPoisson, 0 < N b := by
    intro N b hb; rw [hg.noPoisson] at hb; omega
  rw [Mdl.nll_off_ok hN (hp N) h0 (hp N0), Mdl.nllValOff_eq (hp N) (hp N0) false hg.hsym]
  congr 3
  simp only [Mdl.nllVal, hg.noPoisson, Finset.range_zero, Finset.sum_empty, zero_add, Bool.false_eq_true,
    if_false, Mdl.constraintTerm_eq, gF]
  congr 1
  unfold Mdl.quad Mdl.bil
  have e : ∀ b, N b - d.counts b = a b + dY s c x θ b - d.counts b := by
    intro b; rw [hNv, dY]; ring
  simp only [e]

theorem nllsWhere_eq {m : Mdl 1 P} {A : Mdl.Arrays} (hg : GaussianModel m A) {a s : Nat → ℝ}
    {c : Nat → Fin P → ℝ} (hy : YieldsAre m A a s c) {N0 : Nat → ℝ} (h0 : m.refTot A = .ok N0)
    (d : Mdl.DataV P) (x : ℝ) :
    nllsWhere m A d (fun y => y 0 = x) =
      Set.range (fun θ => gF m a s c d x θ - m.offsetVal N0 d) := by
  ext v
  constructor
  · rintro ⟨y, θ, hy0, hv⟩
    have e : y = fun _ => x := by
      funext i; rw [Subsingleton.elim i 0]; exact hy0
    rw [e, nll_gF hg hy h0] at hv
    exact ⟨θ, Flt.fin.inj (Except.ok.inj hv)⟩
  · rintro ⟨θ, rfl⟩
    exact ⟨fun _ => x, θ, rfl, nll_gF hg hy h0 d x θ⟩

/-- Minimum over the NPs. -/
theorem gF_min {m : Mdl 1 P} {A : Mdl.Arrays} (hg : GaussianModel m A) {a s : Nat → ℝ}
    {c : Nat → Fin P → ℝ} (hy : YieldsAre m A a s c) (d : Mdl.DataV P) (x : ℝ) :
    ∃ θ1, ∀ θ, gF m a s c d x θ1 ≤ gF m a s c d x θ := by
  obtain ⟨N0, h0⟩ := hg.ref
  obtain ⟨θ1, v1, _, h2, _, h4⟩ := Mdl.gauss_min hg.sym hg.lin hg.cut hg.noLog hg.hsym hg.hpsd hg.noPoisson
    hg.constrained h0 (nll_gF hg hy h0 d x 0)
  refine ⟨θ1, fun θ => ?_⟩
  rw [nll_gF hg hy h0] at h2
  have e := Flt.fin.inj (Except.ok.inj (ε := PyErr) h2)
  have := h4 θ _ (nll_gF hg hy h0 d x θ)
  linarith

/-- The data of the quadratic form itself. -/
def baseData (a : Nat → ℝ) : Mdl.DataV P := ⟨a, 0⟩

theorem gF_base (m : Mdl 1 P) (a s : Nat → ℝ) (c : Nat → Fin P → ℝ) (x : ℝ) (θ : Fin P → ℝ) :
    gF m a s c (baseData a) x θ = qF m s c x θ := by
  unfold gF qF
  have e : (fun b => a b + dY s c x θ b - (baseData (P := P) a).counts b) = dY s c x θ := by
    funext b; simp [baseData]
  rw [e]
  simp [baseData]

theorem qF_least {m : Mdl 1 P} {A : Mdl.Arrays} (hg : GaussianModel m A) {a s : Nat → ℝ}
    {c : Nat → Fin P → ℝ} (hy : YieldsAre m A a s c)
    (hs : 0 < ∑ i ∈ Finset.range m.nbinsGaussian, ∑ j ∈ Finset.range m.nbinsGaussian,
      s i * m.poiHessian i j * s j) :
    ∃ K, 0 < K ∧ IsLeast (Set.range (qF m s c 1)) K := by
  obtain ⟨θ1, h1⟩ := gF_min hg hy (baseData a) 1
  simp only [gF_base] at h1
  refine ⟨qF m s c 1 θ1, ?_, ⟨θ1, rfl⟩, by rintro _ ⟨θ, rfl⟩; exact h1 θ⟩
  have hw : ∀ p, 0 < (m.nps p).constraintWeight := by
    intro p
    obtain ⟨k, h3, h4, _⟩ := hg.constrained p
    simp only [NP.constraintWeight, h3]
    positivity
  have hb : 0 ≤ m.bil (dY s c 1 θ1) (dY s c 1 θ1) := hg.hpsd _
  by_cases h : θ1 = 0
  · have e : dY s c 1 θ1 = s := by funext b; simp [dY, h]
    unfold qF
    rw [e, h]
    have : 0 < m.bil s s := hs
    simp
    linarith
  · obtain ⟨p, hp⟩ : ∃ p, θ1 p ≠ 0 := by
      by_contra hc
      push Not at hc
      exact h (funext hc)
    have : 0 < ∑ p, (m.nps p).constraintWeight * (θ1 p * θ1 p) := by
      refine Finset.sum_pos' (fun p _ => mul_nonneg (hw p).le (mul_self_nonneg _)) ⟨p, Finset.mem_univ _, ?_⟩
      exact mul_pos (hw p) (mul_self_pos.2 hp)
    unfold qF
    linarith

theorem gF_profile {m : Mdl 1 P} {A : Mdl.Arrays} (hg : GaussianModel m A) {a s : Nat → ℝ}
    {c : Nat → Fin P → ℝ} (hy : YieldsAre m A a s c) {K : ℝ} (hK : IsLeast (Set.range (qF m s c 1)) K)
    (d : Mdl.DataV P) (x0 : ℝ) : ∃ θ0 ℓ, (∀ θ, gF m a s c d x0 θ0 ≤ gF m a s c d x0 θ) ∧
      ∀ t, IsLeast (Set.range (gF m a s c d (x0 + t))) (gF m a s c d x0 θ0 + ℓ * t + K * t ^ 2) := by
  obtain ⟨θ0, h1⟩ := gF_min hg hy d x0
  refine ⟨θ0, lF m a s c d x0 θ0 1 0, h1, fun t => ?_⟩
  have h := quadratic_profile (fun t θ => gF m a s c d (x0 + t) θ) (qF m s c) (lF m a s c d x0 θ0) θ0
    (lF m a s c d x0 θ0 1 0) K ?_ ?_ ?_ ?_ ?_ ?_ hK t
  · simpa using h
  · intro t δ
    simpa using gF_exp m hg.hsym a s c d x0 t θ0 δ
  · intro e δ
    simpa using lF_smul m a s c d x0 e 0 θ0 δ
  · intro t δ
    exact lF_split m a s c d x0 t θ0 δ
  · exact qF_smul m s c
  · exact qF_nonneg m hg.hpsd s c
  · intro θ
    simpa using h1 θ

/-- The uncertainty depends on the model only: `K = 1/(2 σ^2)`. -/
theorem parabola_of_profile {m : Mdl 1 P} {A : Mdl.Arrays} (hg : GaussianModel m A) {a s : Nat → ℝ}
    {c : Nat → Fin P → ℝ} (hy : YieldsAre m A a s c) {N0 : Nat → ℝ} (h0 : m.refTot A = .ok N0) {K : ℝ}
    (hK0 : 0 < K) (d : Mdl.DataV P) (x0 g0 ℓ : ℝ)
    (h : ∀ t, IsLeast (Set.range (gF m a s c d (x0 + t))) (g0 + ℓ * t + K * t ^ 2)) :
    Parabola m A d (x0 - ℓ / (2 * K)) (1 / Real.sqrt (2 * K))
      (g0 - ℓ ^ 2 / (4 * K) - m.offsetVal N0 d) := by
  intro x
  rw [nllsWhere_eq hg hy h0]
  have hx := h (x - x0)
  rw [add_sub_cancel] at hx
  have e : g0 - ℓ ^ 2 / (4 * K) - m.offsetVal N0 d +
      ((x - (x0 - ℓ / (2 * K))) / (1 / Real.sqrt (2 * K))) ^ 2 / 2 =
      (g0 + ℓ * (x - x0) + K * (x - x0) ^ 2) - m.offsetVal N0 d := by
    rw [div_div_eq_mul_div, div_one, mul_pow, Real.sq_sqrt (by linarith)]
    field_simp
    ring
  rw [e]
  obtain ⟨⟨θ, h1⟩, h2⟩ := hx
  refine ⟨⟨θ, by simp only [h1]⟩, ?_⟩
  rintro _ ⟨θ', rfl⟩
  have := h2 ⟨θ', rfl⟩
  simp only
  linarith

/-- Asimov data: the minimum is at the generating point. -/
theorem gF_asimov {m : Mdl 1 P} {A : Mdl.Arrays} {a s : Nat → ℝ}
    {c : Nat → Fin P → ℝ} (hy : YieldsAre m A a s c) {x0 : ℝ} {θ0 : Fin P → ℝ} {d : Mdl.DataV P}
    (hd : m.generateAsimov A (fun _ => x0) θ0 = .ok d) (hS : m.HSymm) (t : ℝ) (δ : Fin P → ℝ) :
    gF m a s c d (x0 + t) (θ0 + δ) = qF m s c t δ := by
  obtain ⟨N, hN, hNv⟩ := hy x0 θ0
  simp only [Mdl.generateAsimov, hN, bind_ok, pure_ok] at hd
  have e := Except.ok.inj (ε := PyErr) hd
  have e1 : (fun b => a b + dY s c x0 θ0 b - d.counts b) = fun _ => 0 := by
    funext b
    rw [← e]
    simp only [hNv, dY]; ring
  have e2 : ∀ p, θ0 p - d.aux_obs p = 0 := by
    intro p; rw [← e]; simp
  have hz : gF m a s c d x0 θ0 = 0 := by
    unfold gF; rw [e1]; simp [e2, Mdl.bil]
  have hl : lF m a s c d x0 θ0 t δ = 0 := by
    unfold lF; rw [e1]; simp [e2, Mdl.bil]
  rw [gF_exp m hS, hz, hl]; ring

theorem parabola_asimov {m : Mdl 1 P} {A : Mdl.Arrays} (hg : GaussianModel m A) {a s : Nat → ℝ}
    {c : Nat → Fin P → ℝ} (hy : YieldsAre m A a s c) {K : ℝ} (hK0 : 0 < K)
    (hK : IsLeast (Set.range (qF m s c 1)) K) {x0 : ℝ} {θ0 : Fin P → ℝ} {d : Mdl.DataV P}
    (hd : m.generateAsimov A (fun _ => x0) θ0 = .ok d) :
    ∃ const, Parabola m A d x0 (1 / Real.sqrt (2 * K)) const := by
  obtain ⟨N0, h0⟩ := hg.ref
  have h := parabola_of_profile hg hy h0 hK0 d x0 0 0 ?_
  · exact ⟨_, by simpa using h⟩
  · intro t
    have e : Set.range (gF m a s c d (x0 + t)) = Set.range (qF m s c t) := by
      ext v
      constructor
      · rintro ⟨θ, rfl⟩
        refine ⟨θ - θ0, ?_⟩
        rw [← gF_asimov hy hd hg.hsym]
        congr 1; abel
      · rintro ⟨δ, rfl⟩
        exact ⟨θ0 + δ, gF_asimov hy hd hg.hsym t δ⟩
    rw [e]
    obtain ⟨⟨δ1, e1⟩, hlow⟩ := hK
    constructor
    · refine ⟨t • δ1, ?_⟩
      have := qF_smul m s c t 1 δ1
      rw [mul_one] at this
      rw [this, e1]; ring
    · rintro _ ⟨δ, rfl⟩
      by_cases ht : t = 0
      · rw [ht]; simpa using qF_nonneg m hg.hpsd s c 0 δ
      · have h1 := qF_smul m s c t 1 ((1 / t) • δ)
        rw [mul_one, smul_smul, mul_one_div_cancel ht, one_smul] at h1
        rw [h1]
        have h2 := hlow ⟨(1 / t) • δ, rfl⟩
        nlinarith [sq_nonneg t]

/-- A Gaussian model with affine yields measures its POI with an uncertainty that does not depend on the
data. -/
theorem uncertainty {m : Mdl 1 P} {A : Mdl.Arrays} (hg : GaussianModel m A) (ha : AffineYields m A) :
    ∃ σ, 0 < σ ∧ (∀ d, ∃ best const, Parabola m A d best σ const) ∧
      ∀ x0 θ0 d, m.generateAsimov A (fun _ => x0) θ0 = .ok d → ∃ const, Parabola m A d x0 σ const := by
  obtain ⟨a, s, c, hy, hs⟩ := ha
  obtain ⟨K, hK0, hK⟩ := qF_least hg hy hs
  obtain ⟨N0, h0⟩ := hg.ref
  refine ⟨1 / Real.sqrt (2 * K), by positivity, fun d => ?_, fun x0 θ0 d hd =>
    parabola_asimov hg hy hK0 hK hd⟩
  obtain ⟨θ0, ℓ, _, h⟩ := gF_profile hg hy hK d 0
  exact ⟨_, _, parabola_of_profile hg hy h0 hK0 d 0 _ ℓ h⟩

/-- The parabola of a dataset is unique. -/
theorem Parabola.unique {m : Mdl 1 P} {A : Mdl.Arrays} {d : Mdl.DataV P} {b σ k b' σ' k' : ℝ} (hσ : 0 < σ)
    (hσ' : 0 < σ') (h : Parabola m A d b σ k) (h' : Parabola m A d b' σ' k') : b = b' ∧ σ = σ' ∧ k = k' := by
  have e : ∀ x, k + ((x - b) / σ) ^ 2 / 2 = k' + ((x - b') / σ') ^ 2 / 2 := fun x => (h x).unique (h' x)
  have h1 := e b
  have h2 := e b'
  rw [sub_self, zero_div] at h1 h2
  have p1 := sq_nonneg ((b - b') / σ')
  have p2 := sq_nonneg ((b' - b) / σ)
  have hk : k = k' := by nlinarith
  have hb : ((b - b') / σ') ^ 2 = 0 := by nlinarith
  have hb' : b = b' := by
    have := pow_eq_zero_iff (two_ne_zero) |>.1 hb
    rw [div_eq_zero_iff] at this
    rcases this with h | h <;> linarith
  subst hb' hk
  refine ⟨rfl, ?_, rfl⟩
  have h3 := e (b + 1)
  simp only [add_sub_cancel_left] at h3
  have h4 : (1 / σ) ^ 2 = (1 / σ') ^ 2 := by linarith
  have h5 : 1 / σ = 1 / σ' := by
    rwa [pow_left_inj₀ (by positivity) (by positivity) two_ne_zero] at h4
  simpa using h5

end Verif.Lim
