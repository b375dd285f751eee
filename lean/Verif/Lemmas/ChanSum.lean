import Verif.Lemmas.MergeData
import Verif.Spec.Pieces
/-!
# The likelihood as a sum over channels
-/
namespace Verif
open Mdl

/-- Contribution of a channel: the Poisson terms `T`, or half the Gaussian form of `u` and `v`. -/
noncomputable def chVal (ch : Channel) (T u v : Nat → ℝ) : ℝ :=
  if ch.gaussian then (1 / 2) * ∑ i ∈ Finset.range ch.nbins, ∑ j ∈ Finset.range ch.nbins,
    u i * ch.hessian i j * v j
  else ∑ b ∈ Finset.range ch.nbins, T b

/-- Sum over the channels, the bins being numbered through. -/
noncomputable def blockSum : List Channel → (Nat → ℝ) → (Nat → ℝ) → (Nat → ℝ) → ℝ
  | [], _, _, _ => 0
  | ch :: l, T, u, v => chVal ch T u v +
      blockSum l (fun b => T (ch.nbins + b)) (fun b => u (ch.nbins + b)) (fun b => v (ch.nbins + b))

theorem blockSum_append (l1 l2 : List Channel) (T u v : Nat → ℝ) :
    blockSum (l1 ++ l2) T u v = blockSum l1 T u v + blockSum l2 (fun b => T (binsOf l1 + b))
      (fun b => u (binsOf l1 + b)) (fun b => v (binsOf l1 + b)) := by
  induction l1 generalizing T u v with
  | nil => simp [blockSum, binsOf]
  | cons a l1 ih =>
    simp only [List.cons_append, blockSum, ih, binsOf, List.map_cons, List.sum_cons, add_assoc]

theorem chVal_congr (ch : Channel) {T u v T' u' v' : Nat → ℝ} (hT : ∀ b < ch.nbins, T b = T' b)
    (hu : ∀ b < ch.nbins, u b = u' b) (hv : ∀ b < ch.nbins, v b = v' b) :
    chVal ch T u v = chVal ch T' u' v' := by
  unfold chVal
  split_ifs
  · congr 1
    refine Finset.sum_congr rfl fun i hi => Finset.sum_congr rfl fun j hj => ?_
    rw [hu i (Finset.mem_range.1 hi), hv j (Finset.mem_range.1 hj)]
  · exact Finset.sum_congr rfl fun i hi => hT i (Finset.mem_range.1 hi)

theorem blockSum_congr (l : List Channel) {T u v T' u' v' : Nat → ℝ} (hT : ∀ b < binsOf l, T b = T' b)
    (hu : ∀ b < binsOf l, u b = u' b) (hv : ∀ b < binsOf l, v b = v' b) :
    blockSum l T u v = blockSum l T' u' v' := by
  induction l generalizing T u v T' u' v' with
  | nil => rfl
  | cons a l ih =>
    have hb : binsOf (a :: l) = a.nbins + binsOf l := by simp [binsOf]
    simp only [blockSum]
    rw [chVal_congr a (fun b h => hT b (by omega)) (fun b h => hu b (by omega)) (fun b h => hv b (by omega)),
      ih (fun b h => hT _ (by omega)) (fun b h => hu _ (by omega)) (fun b h => hv _ (by omega))]

theorem blockSum_poisson (l : List Channel) (h : ∀ c ∈ l, c.gaussian = false) (T u v : Nat → ℝ) :
    blockSum l T u v = ∑ b ∈ Finset.range (binsOf l), T b := by
  induction l generalizing T u v with
  | nil => rfl
  | cons a l ih =>
    have hb : binsOf (a :: l) = a.nbins + binsOf l := by simp [binsOf]
    rw [blockSum, ih fun c hc => h c (by simp [hc]), hb, Finset.sum_range_add, chVal, h a (by simp)]
    rfl

/-- The form of a square block. -/
noncomputable def form (k : Nat) (H : Nat → Nat → ℝ) (u v : Nat → ℝ) : ℝ :=
  ∑ i ∈ Finset.range k, ∑ j ∈ Finset.range k, u i * H i j * v j

theorem form_step (o k : Nat) (H B : Nat → Nat → ℝ) (u v : Nat → ℝ)
    (h1 : ∀ i < o, ∀ j < o, B i j = H i j) (h2 : ∀ i < o, ∀ j, o ≤ j → B i j = 0)
    (h3 : ∀ i, o ≤ i → ∀ j < o, B i j = 0) :
    form (o + k) B u v = form o H u v +
      form k (fun i j => B (o + i) (o + j)) (fun i => u (o + i)) (fun j => v (o + j)) := by
  unfold form
  rw [Finset.sum_range_add]
  congr 1
  · refine Finset.sum_congr rfl fun i hi => ?_
    rw [Finset.sum_range_add, Finset.sum_eq_zero (s := Finset.range k), add_zero]
    · exact Finset.sum_congr rfl fun j hj => by
        rw [h1 i (Finset.mem_range.1 hi) j (Finset.mem_range.1 hj)]
    · intro j _
      rw [h2 i (Finset.mem_range.1 hi) _ (by omega)]; ring
  · refine Finset.sum_congr rfl fun i hi => ?_
    rw [Finset.sum_range_add, Finset.sum_eq_zero (s := Finset.range o), zero_add]
    intro j hj
    rw [h3 _ (by omega) j (Finset.mem_range.1 hj)]; ring

theorem gauss_fold (nP : Nat) (l : List Channel) (hl : ∀ c ∈ l, c.gaussian = true) (T u v : Nat → ℝ) (o : Nat)
    (st : ChanState) (hst : st.nbins = nP + o) (h0 : ∀ i j, ¬(i < o ∧ j < o) → st.poiHessian i j = 0) :
    (1 / 2) * form (o + binsOf l) (l.foldl (chanStep nP) st).poiHessian u v =
      (1 / 2) * form o st.poiHessian u v + blockSum l T (fun i => u (o + i)) (fun i => v (o + i)) := by
  induction l generalizing T o st with
  | nil => simp [binsOf, blockSum]
  | cons a l ih =>
    have ha := hl a (by simp)
    have hb : binsOf (a :: l) = a.nbins + binsOf l := by simp [binsOf]
    have e : st.nbins - nP = o := by omega
    have hH : (chanStep nP st a).poiHessian = fun i j =>
        if o ≤ i ∧ i < o + a.nbins ∧ o ≤ j ∧ j < o + a.nbins then a.hessian (i - o) (j - o)
        else st.poiHessian i j := by
      simp [chanStep, ha, e]
    rw [List.foldl_cons, hb, ← add_assoc,
      ih (fun c hc => hl c (by simp [hc])) (fun b => T (a.nbins + b)) (o + a.nbins) (chanStep nP st a) (by simp [chanStep, hst]; omega) ?_, blockSum]
    · rw [form_step o a.nbins st.poiHessian, chVal, if_pos ha]
      · have : form a.nbins (fun i j => (chanStep nP st a).poiHessian (o + i) (o + j)) (fun i => u (o + i))
            (fun j => v (o + j)) = ∑ i ∈ Finset.range a.nbins, ∑ j ∈ Finset.range a.nbins,
            u (o + i) * a.hessian i j * v (o + j) := by
          unfold form
          refine Finset.sum_congr rfl fun i hi => Finset.sum_congr rfl fun j hj => ?_
          rw [hH]
          dsimp only
          rw [if_pos ⟨by omega, by have := Finset.mem_range.1 hi; omega, by omega,
            by have := Finset.mem_range.1 hj; omega⟩]
          simp
        rw [this]
        simp only [add_assoc]
        ring
      · intro i hi j hj; rw [hH]; dsimp only; rw [if_neg (by omega)]
      · intro i hi j hj; rw [hH]; dsimp only; rw [if_neg (by omega), h0 _ _ (by omega)]
      · intro i hi j hj; rw [hH]; dsimp only; rw [if_neg (by omega), h0 _ _ (by omega)]
    · intro i j hij
      rw [hH]; dsimp only
      rw [if_neg (by omega), h0 _ _ (by omega)]

namespace Mdl
variable {n P : Nat}

/-- The Poisson and Gaussian terms of a likelihood, channel by channel. -/
theorem terms_eq_blockSum {m : Mdl n P} (ho : PoissonFirst m.channels) (T u v : Nat → ℝ) :
    (∑ b ∈ Finset.range m.nbinsPoisson, T b) +
      m.quad (fun i => u (m.nbinsPoisson + i)) (fun i => v (m.nbinsPoisson + i)) =
    blockSum m.channels T u v := by
  conv_rhs => rw [poisson_split ho]
  have hP : ∀ c ∈ m.channels.filter (fun c => !c.gaussian), c.gaussian = false := by
    intro c hc; simpa using (List.mem_filter.1 hc).2
  have hG : ∀ c ∈ m.channels.filter (fun c => c.gaussian), c.gaussian = true :=
    fun c hc => (List.mem_filter.1 hc).2
  rw [blockSum_append, blockSum_poisson _ hP]
  have e1 : binsOf (m.channels.filter (fun c => !c.gaussian)) = m.nbinsPoisson := rfl
  have e2 : binsOf (m.channels.filter (fun c => c.gaussian)) = m.nbinsGaussian := rfl
  rw [e1]
  congr 1
  have := gauss_fold m.nbinsPoisson _ hG (fun b => T (m.nbinsPoisson + b)) (fun i => u (m.nbinsPoisson + i))
    (fun i => v (m.nbinsPoisson + i)) 0 ⟨0, m.nbinsPoisson, [], fun _ _ => 0⟩ rfl (fun _ _ _ => rfl)
  rw [← poiHessian_eq ho, e2] at this
  simp only [zero_add] at this
  unfold quad
  unfold form at this
  rw [this]
  simp

end Mdl
end Verif
