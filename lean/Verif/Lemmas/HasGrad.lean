import Mathlib.Analysis.Calculus.Deriv.Mul
import Mathlib.Analysis.Calculus.FDeriv.Pi
import Mathlib.Analysis.Calculus.Deriv.Pi
import Mathlib.Analysis.Calculus.FDeriv.Mul
import Mathlib.Analysis.Calculus.Deriv.Inv
import Mathlib.Analysis.Calculus.Deriv.Comp
import Mathlib.Analysis.SpecialFunctions.ExpDeriv
import Mathlib.Analysis.SpecialFunctions.Log.Deriv
/-!
# Gradients of functions of finitely many real variables

`HasGrad f g x`: `f : (ι → ℝ) → ℝ` is Fréchet differentiable at `x` with gradient vector `g`.
-/
namespace Verif
variable {ι : Type} [Fintype ι]

/-- The linear functional `h ↦ ∑ i, g i * h i`. -/
noncomputable def dotL (g : ι → ℝ) : (ι → ℝ) →L[ℝ] ℝ :=
  ∑ i, g i • ContinuousLinearMap.proj (R := ℝ) (φ := fun _ : ι => ℝ) i

theorem dotL_apply (g h : ι → ℝ) : dotL g h = ∑ i, g i * h i := by
  simp [dotL, ContinuousLinearMap.sum_apply]

theorem dotL_add (g h : ι → ℝ) : dotL (g + h) = dotL g + dotL h := by
  ext v; simp [dotL_apply, add_mul, Finset.sum_add_distrib]

theorem dotL_smul (a : ℝ) (g : ι → ℝ) : dotL (a • g) = a • dotL g := by
  ext v; simp [dotL_apply, Finset.mul_sum, mul_assoc]

@[simp] theorem dotL_zero : dotL (0 : ι → ℝ) = 0 := by
  ext v; simp [dotL_apply]

/-- `f` is differentiable at `x` and `g` is its gradient: `f (x+h) = f x + ∑ g i * h i + o(h)`. -/
def HasGrad (f : (ι → ℝ) → ℝ) (g : ι → ℝ) (x : ι → ℝ) : Prop := HasFDerivAt f (dotL g) x

/-- A gradient is the vector of partial derivatives. -/
theorem HasGrad.partial [DecidableEq ι] {f : (ι → ℝ) → ℝ} {g x : ι → ℝ} (h : HasGrad f g x) (i : ι) :
    HasDerivAt (fun t => f (Function.update x i t)) (g i) (x i) := by
  have h1 : HasDerivAt (Function.update x i) (Pi.single i 1) (x i) := hasDerivAt_update x i (x i)
  have hx : Function.update x i (x i) = x := by simp
  have h2 : HasFDerivAt f (dotL g) (Function.update x i (x i)) := by rw [hx]; exact h
  have h3 := h2.comp_hasDerivAt (x i) h1
  have : dotL g (Pi.single i 1) = g i := by
    rw [dotL_apply]; simp [Pi.single_apply]
  rwa [this] at h3

/-- The gradient is unique. -/
theorem HasGrad.unique {f : (ι → ℝ) → ℝ} {g g' x : ι → ℝ} (h : HasGrad f g x) (h' : HasGrad f g' x) :
    g = g' := by
  classical
  funext i
  exact (h.partial i).unique (h'.partial i)

theorem HasGrad.continuousAt {f : (ι → ℝ) → ℝ} {g x : ι → ℝ} (h : HasGrad f g x) :
    ContinuousAt f x := HasFDerivAt.continuousAt h

theorem HasGrad.congr {f f' : (ι → ℝ) → ℝ} {g x : ι → ℝ} (h : HasGrad f g x)
    (he : f' =ᶠ[nhds x] f) : HasGrad f' g x := HasFDerivAt.congr_of_eventuallyEq h he

theorem hasGrad_const (a : ℝ) (x : ι → ℝ) : HasGrad (fun _ => a) 0 x := by
  simpa [HasGrad] using hasFDerivAt_const a x

theorem hasGrad_proj [DecidableEq ι] (i : ι) (x : ι → ℝ) :
    HasGrad (fun y => y i) (fun j => if j = i then 1 else 0) x := by
  have : dotL (fun j => if j = i then (1:ℝ) else 0) = ContinuousLinearMap.proj (R := ℝ) (φ := fun _ : ι => ℝ) i := by
    ext v; simp [dotL_apply]
  rw [HasGrad, this]
  exact (ContinuousLinearMap.proj (R := ℝ) (φ := fun _ : ι => ℝ) i).hasFDerivAt

variable {f f' : (ι → ℝ) → ℝ} {g g' x : ι → ℝ}

theorem HasGrad.add (h : HasGrad f g x) (h' : HasGrad f' g' x) :
    HasGrad (fun y => f y + f' y) (fun i => g i + g' i) x := by
  have := HasFDerivAt.add h h'
  rw [← dotL_add] at this; exact this

theorem HasGrad.const_mul (a : ℝ) (h : HasGrad f g x) :
    HasGrad (fun y => a * f y) (fun i => a * g i) x := by
  have := HasFDerivAt.const_mul h a
  rw [← dotL_smul] at this; exact this

theorem HasGrad.neg (h : HasGrad f g x) : HasGrad (fun y => - f y) (fun i => - g i) x := by
  have := h.const_mul (-1)
  simpa using this

theorem HasGrad.sub (h : HasGrad f g x) (h' : HasGrad f' g' x) :
    HasGrad (fun y => f y - f' y) (fun i => g i - g' i) x := by
  have := h.add h'.neg
  simpa [sub_eq_add_neg] using this

theorem HasGrad.mul (h : HasGrad f g x) (h' : HasGrad f' g' x) :
    HasGrad (fun y => f y * f' y) (fun i => g i * f' x + f x * g' i) x := by
  have := HasFDerivAt.mul h h'
  rw [← dotL_smul, ← dotL_smul, ← dotL_add] at this
  have e : f x • g' + f' x • g = fun i => g i * f' x + f x * g' i := by
    funext i; simp [mul_comm, add_comm]
  rw [e] at this; exact this

theorem HasGrad.comp {φ : ℝ → ℝ} {φ' : ℝ} (hφ : HasDerivAt φ φ' (f x)) (h : HasGrad f g x) :
    HasGrad (fun y => φ (f y)) (fun i => φ' * g i) x := by
  have := hφ.comp_hasFDerivAt x h
  rw [← dotL_smul] at this; exact this

theorem HasGrad.exp (h : HasGrad f g x) :
    HasGrad (fun y => Real.exp (f y)) (fun i => Real.exp (f x) * g i) x :=
  HasGrad.comp (Real.hasDerivAt_exp _) h

theorem HasGrad.inv (h : HasGrad f g x) (hx : f x ≠ 0) :
    HasGrad (fun y => (f y)⁻¹) (fun i => -(f x ^ 2)⁻¹ * g i) x :=
  HasGrad.comp (hasDerivAt_inv hx) h

theorem HasGrad.div (h : HasGrad f g x) (h' : HasGrad f' g' x) (hx : f' x ≠ 0) :
    HasGrad (fun y => f y / f' y) (fun i => (g i * f' x - f x * g' i) / f' x ^ 2) x := by
  have := h.mul (h'.inv hx)
  have e : (fun i => g i * (f' x)⁻¹ + f x * (-(f' x ^ 2)⁻¹ * g' i))
      = fun i => (g i * f' x - f x * g' i) / f' x ^ 2 := by
    funext i; field_simp; ring
  rw [e] at this
  simpa [div_eq_mul_inv] using this

theorem HasGrad.log (h : HasGrad f g x) (hx : f x ≠ 0) :
    HasGrad (fun y => Real.log (f y)) (fun i => (f x)⁻¹ * g i) x :=
  HasGrad.comp (Real.hasDerivAt_log hx) h

theorem HasGrad.list_sum {α : Type} (l : List α) (F : α → (ι → ℝ) → ℝ) (G : α → ι → ℝ)
    (h : ∀ a ∈ l, HasGrad (F a) (G a) x) :
    HasGrad (fun y => (l.map (fun a => F a y)).sum) (fun i => (l.map (fun a => G a i)).sum) x := by
  induction l with
  | nil => simp only [List.map_nil, List.sum_nil, Finset.sum_empty]; exact hasGrad_const (0:ℝ) x
  | cons a l ih =>
    simpa using (h a (by simp)).add (ih (fun b hb => h b (by simp [hb])))

theorem HasGrad.finset_sum {α : Type} (s : Finset α) (F : α → (ι → ℝ) → ℝ) (G : α → ι → ℝ)
    (h : ∀ a ∈ s, HasGrad (F a) (G a) x) :
    HasGrad (fun y => ∑ a ∈ s, F a y) (fun i => ∑ a ∈ s, G a i) x := by
  classical
  induction s using Finset.induction_on with
  | empty => simp only [List.map_nil, List.sum_nil, Finset.sum_empty]; exact hasGrad_const (0:ℝ) x
  | insert a s ha ih =>
    simp only [Finset.sum_insert ha]
    exact (h a (by simp)).add (ih (fun b hb => h b (by simp [hb])))

end Verif
