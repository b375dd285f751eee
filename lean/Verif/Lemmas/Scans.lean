import Verif.Spec.Spline
import Verif.Lemmas.Except
import Verif.Lemmas.Normal
import Verif.Lemmas.Expr
import Mathlib.Probability.Distributions.Exponential
import Mathlib.LinearAlgebra.Lagrange
import Mathlib.Analysis.Calculus.Deriv.Polynomial
/-! Lemmas on scans. -/
namespace Verif
open Classical
namespace Scan

theorem pyMin_spec {α : Type} (a : α × ℝ) (l : List (α × ℝ)) :
    ∃ pre post, a :: l = pre ++ pyMin a l :: post ∧ (∀ b ∈ pre, (pyMin a l).2 < b.2) ∧
      (∀ b ∈ post, (pyMin a l).2 ≤ b.2) := by
  induction l generalizing a with
  | nil => exact ⟨[], [], by simp [pyMin], by simp, by simp⟩
  | cons b l ih =>
    simp only [pyMin]
    split_ifs with h
    · obtain ⟨pre, post, h1, h2, h3⟩ := ih b
      refine ⟨a :: pre, post, by rw [h1]; rfl, ?_, h3⟩
      intro c hc
      rcases List.mem_cons.1 hc with rfl | hc
      · have : (pyMin b l).2 ≤ b.2 := by
          have hb : b ∈ pre ++ pyMin b l :: post := by rw [← h1]; simp
          rcases List.mem_append.1 hb with hb | hb
          · exact (h2 b hb).le
          · rcases List.mem_cons.1 hb with hb | hb
            · rw [← hb]
            · exact h3 b hb
        linarith
      · exact h2 c hc
    · push Not at h
      obtain ⟨pre, post, h1, h2, h3⟩ := ih a
      cases pre with
      | nil =>
        simp only [List.nil_append, List.cons.injEq] at h1
        obtain ⟨h4, rfl⟩ := h1
        rw [← h4] at h3 ⊢
        refine ⟨[], b :: l, rfl, by simp, ?_⟩
        intro c hc
        rcases List.mem_cons.1 hc with rfl | hc
        · exact h
        · exact h3 c hc
      | cons p pre =>
        simp only [List.cons_append, List.cons.injEq] at h1
        obtain ⟨rfl, h1⟩ := h1
        have ha := h2 a (by simp)
        refine ⟨a :: b :: pre, post, congrArg (fun t => a :: b :: t) h1, ?_, h3⟩
        intro c hc
        rcases List.mem_cons.1 hc with rfl | hc
        · exact ha
        · rcases List.mem_cons.1 hc with rfl | hc
          · linarith
          · exact h2 c (by simp [hc])

theorem pyMax_spec {α : Type} (a : α × ℝ) (l : List (α × ℝ)) :
    ∃ pre post, a :: l = pre ++ pyMax a l :: post ∧ (∀ b ∈ pre, b.2 < (pyMax a l).2) ∧
      (∀ b ∈ post, b.2 ≤ (pyMax a l).2) := by
  induction l generalizing a with
  | nil => exact ⟨[], [], by simp [pyMax], by simp, by simp⟩
  | cons b l ih =>
    simp only [pyMax]
    split_ifs with h
    · obtain ⟨pre, post, h1, h2, h3⟩ := ih b
      refine ⟨a :: pre, post, by rw [h1]; rfl, ?_, h3⟩
      intro c hc
      rcases List.mem_cons.1 hc with rfl | hc
      · have : b.2 ≤ (pyMax b l).2 := by
          have hb : b ∈ pre ++ pyMax b l :: post := by rw [← h1]; simp
          rcases List.mem_append.1 hb with hb | hb
          · exact (h2 b hb).le
          · rcases List.mem_cons.1 hb with hb | hb
            · rw [← hb]
            · exact h3 b hb
        linarith
      · exact h2 c hc
    · push Not at h
      obtain ⟨pre, post, h1, h2, h3⟩ := ih a
      cases pre with
      | nil =>
        simp only [List.nil_append, List.cons.injEq] at h1
        obtain ⟨h4, rfl⟩ := h1
        rw [← h4] at h3 ⊢
        refine ⟨[], b :: l, rfl, by simp, ?_⟩
        intro c hc
        rcases List.mem_cons.1 hc with rfl | hc
        · exact h
        · exact h3 c hc
      | cons p pre =>
        simp only [List.cons_append, List.cons.injEq] at h1
        obtain ⟨rfl, h1⟩ := h1
        have ha := h2 a (by simp)
        refine ⟨a :: b :: pre, post, congrArg (fun t => a :: b :: t) h1, ?_, h3⟩
        intro c hc
        rcases List.mem_cons.1 hc with rfl | hc
        · exact ha
        · rcases List.mem_cons.1 hc with rfl | hc
          · linarith
          · exact h2 c (by simp [hc])

theorem spline_ok {xs ys : List ℝ} {k : ℕ} {s : Spl} (h : spline xs ys k = .ok s) :
    s = ⟨xs, ys, k⟩ ∧ xs.Pairwise (· < ·) ∧ xs.length = ys.length ∧ 1 ≤ k ∧ k ≤ 5 ∧ k < xs.length := by
  simp only [spline] at h
  split_ifs at h with hc
  cases h
  exact ⟨rfl, hc⟩

/-- The chi-square distribution with 2 degrees of freedom. -/
theorem chi2Sf_two (x : ℝ) (hx : 0 ≤ x) : chi2Sf x 2 = Real.exp (-x / 2) := by
  have h := ProbabilityTheory.cdf_expMeasure_eq (r := 1 / 2) (by norm_num) x
  have hp : MeasureTheory.IsProbabilityMeasure (ProbabilityTheory.expMeasure (1 / 2)) :=
    ProbabilityTheory.isProbabilityMeasure_expMeasure (by norm_num)
  have he : chi2Sf x 2 = (ProbabilityTheory.expMeasure (1 / 2)).real (Set.Ioi x) := by
    unfold chi2Sf ProbabilityTheory.expMeasure
    norm_num
  rw [he, ← Set.compl_Iic, MeasureTheory.probReal_compl_eq_one_sub measurableSet_Iic,
    ← ProbabilityTheory.cdf_eq_real, h, if_pos hx]
  ring_nf

theorem chi2Sf_surj (k : ℕ) (hk : k = 1 ∨ k = 2) (p : ℝ) (h0 : 0 < p) (h1 : p ≤ 1) :
    ∃ x, 0 ≤ x ∧ chi2Sf x k = p := by
  rcases hk with rfl | rfl
  · have hcont : ContinuousOn (fun x => chi2Sf x 1) (Set.Ici 0) := by
      refine ContinuousOn.congr (f := fun x => 2 * normSf (Real.sqrt x)) ?_ (fun x hx => chi2Sf_one x hx)
      have : Continuous normSf := continuous_iff_continuousAt.2 fun x => (normSf_hasDerivAt x).continuousAt
      exact (continuous_const.mul (this.comp Real.continuous_sqrt)).continuousOn
    have hlim := chi2Sf_atTop 1 (by norm_num)
    obtain ⟨b, hb⟩ := ((hlim.eventually (gt_mem_nhds h0)).and (Filter.eventually_ge_atTop 0)).exists
    have hz : chi2Sf 0 1 = 1 := chi2Sf_of_nonpos 1 (by norm_num) (le_refl 0)
    have := intermediate_value_Icc' hb.2 (hcont.mono (fun x hx => hx.1))
    obtain ⟨x, hx, hxe⟩ := this ⟨hb.1.le, by simpa [hz] using h1⟩
    exact ⟨x, hx.1, hxe⟩
  · refine ⟨-2 * Real.log p, ?_, ?_⟩
    · have := Real.log_nonpos h0.le h1; linarith
    · rw [chi2Sf_two _ (by have := Real.log_nonpos h0.le h1; linarith)]
      rw [show -(-2 * Real.log p) / 2 = Real.log p by ring, Real.exp_log h0]

theorem chi2Isf_spec (k : ℕ) (hk : k = 1 ∨ k = 2) (p : ℝ) (h0 : 0 < p) (h1 : p ≤ 1) :
    0 ≤ chi2Isf p k ∧ chi2Sf (chi2Isf p k) k = p := by
  have h := chi2Sf_surj k hk p h0 h1
  unfold chi2Isf
  rw [dif_pos h]
  exact h.choose_spec

end Scan
end Verif
