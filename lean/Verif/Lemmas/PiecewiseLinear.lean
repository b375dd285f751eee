import Verif.Lemmas.SplineEx
/-!
# Another interpolation that satisfies the contract of `Spec/Spline.lean`

Straight lines between the points (Lagrange polynomials for the quartic objects, whose derivative is used).
It only serves to show that the curve can cross a level exactly once.
-/
namespace Verif
open Classical
namespace Pwl

/-- Straight lines through the points. -/
noncomputable def pl : ℝ → ℝ → List (ℝ × ℝ) → ℝ → ℝ
  | x0, y0, [], x => y0 - (x - x0)
  | x0, y0, p :: l, x => if x ≤ p.1 then y0 + (p.2 - y0) / (p.1 - x0) * (x - x0) else pl p.1 p.2 l x

theorem pl_first (x0 y0 : ℝ) (l : List (ℝ × ℝ)) (h : (x0 :: l.map Prod.fst).Pairwise (· < ·)) :
    pl x0 y0 l x0 = y0 := by
  cases l with
  | nil => simp [pl]
  | cons p l =>
    have : x0 < p.1 := (List.pairwise_cons.1 h).1 p.1 (by simp)
    simp [pl, this.le]

theorem pl_cont (x0 y0 : ℝ) (l : List (ℝ × ℝ)) (h : (x0 :: l.map Prod.fst).Pairwise (· < ·)) :
    Continuous (pl x0 y0 l) := by
  induction l generalizing x0 y0 with
  | nil =>
    have : pl x0 y0 [] = fun x => y0 - (x - x0) := by funext x; simp [pl]
    rw [this]; fun_prop
  | cons p l ih =>
    obtain ⟨h1, h2⟩ := List.pairwise_cons.1 h
    have hp : x0 < p.1 := h1 p.1 (by simp)
    have e : pl x0 y0 (p :: l) = fun x => if x ≤ p.1 then y0 + (p.2 - y0) / (p.1 - x0) * (x - x0)
        else pl p.1 p.2 l x := by funext x; simp [pl]
    rw [e]
    refine Continuous.if_le (by fun_prop) (ih p.1 p.2 h2) continuous_id continuous_const ?_
    intro x hx
    rw [hx, pl_first p.1 p.2 l h2, div_mul_cancel₀ _ (by linarith)]
    ring

theorem pl_interp (x0 y0 : ℝ) (l : List (ℝ × ℝ)) (h : (x0 :: l.map Prod.fst).Pairwise (· < ·)) :
    ∀ p ∈ (x0, y0) :: l, pl x0 y0 l p.1 = p.2 := by
  induction l generalizing x0 y0 with
  | nil => simp [pl]
  | cons q l ih =>
    intro p hp
    obtain ⟨h1, h2⟩ := List.pairwise_cons.1 h
    have hq : x0 < q.1 := h1 q.1 (by simp)
    rcases List.mem_cons.1 hp with rfl | hp
    · exact pl_first _ _ _ h
    · have hi := ih q.1 q.2 h2 p hp
      rcases List.mem_cons.1 hp with rfl | hp
      · simp only [pl, le_refl, if_true]
        rw [div_mul_cancel₀ _ (by linarith)]; ring
      · have : q.1 < p.1 := (List.pairwise_cons.1 h2).1 p.1 (List.mem_map.2 ⟨p, hp, rfl⟩)
        simp only [pl, not_le.2 this, if_false]
        exact hi

theorem pl_anti (x0 y0 : ℝ) (l : List (ℝ × ℝ)) (h : (x0 :: l.map Prod.fst).Pairwise (· < ·))
    (hy : (y0 :: l.map Prod.snd).Pairwise (· > ·)) : StrictAnti (pl x0 y0 l) := by
  induction l generalizing x0 y0 with
  | nil =>
    intro a b hab
    simp only [pl]; linarith
  | cons q l ih =>
    obtain ⟨h1, h2⟩ := List.pairwise_cons.1 h
    obtain ⟨g1, g2⟩ := List.pairwise_cons.1 hy
    have hq : x0 < q.1 := h1 q.1 (by simp)
    have gq : q.2 < y0 := g1 q.2 (by simp)
    have hs : (q.2 - y0) / (q.1 - x0) < 0 := div_neg_of_neg_of_pos (by linarith) (by linarith)
    have hend : y0 + (q.2 - y0) / (q.1 - x0) * (q.1 - x0) = q.2 := by
      rw [div_mul_cancel₀ _ (by linarith)]; ring
    have ih' := ih q.1 q.2 h2 g2
    intro a b hab
    simp only [pl]
    by_cases hb : b ≤ q.1
    · have ha : a ≤ q.1 := by linarith
      rw [if_pos hb, if_pos ha]
      nlinarith
    · rw [if_neg hb]
      by_cases ha : a ≤ q.1
      · rw [if_pos ha]
        have e := ih' (not_le.1 hb)
        rw [pl_first _ _ _ h2] at e
        nlinarith
      · rw [if_neg ha]
        exact ih' hab

/-- The curve of an object. -/
noncomputable def curve (s : Spl) (x : ℝ) : ℝ :=
  if s.order = 4 then (SplineEx.poly s).eval x
  else match s.xs.zip s.ys with
    | [] => 0
    | p :: l => pl p.1 p.2 l x

/-- The zeros within the range, sorted; none if there are infinitely many. -/
noncomputable def zeros (s : Spl) : List ℝ :=
  if h : {x | s.InRange x ∧ curve s x = 0}.Finite then h.toFinset.sort (· ≤ ·) else []

theorem mem_zeros (s : Spl) (h : {x | s.InRange x ∧ curve s x = 0}.Finite) (x : ℝ) :
    x ∈ zeros s ↔ s.InRange x ∧ curve s x = 0 := by
  simp [zeros, h]

/-- Straight lines as a spline library. -/
noncomputable def lib : SplineLib where
  eval := curve
  roots := zeros
  stationary s := SplineEx.lib.stationary s

theorem correct : lib.Correct where
  interp := by
    intro xs ys k s h p hp
    obtain ⟨rfl, hinc, hlen⟩ := SplineEx.spline_eq h
    by_cases hk : k = 4
    · have := SplineEx.correct.interp xs ys k _ h p hp
      simpa [lib, curve, hk, SplineEx.lib] using this
    · simp only [lib, curve, hk, if_false]
      match hz : xs.zip ys with
      | [] => rw [hz] at hp; simp at hp
      | q :: l =>
        rw [hz] at hp
        simp only
        refine pl_interp q.1 q.2 l ?_ p hp
        have : (xs.zip ys).map Prod.fst = xs := by rw [List.map_fst_zip hlen.le]
        rw [hz] at this
        rw [List.map_cons] at this
        rw [this]; exact hinc
  cont := by
    intro xs ys k s h
    obtain ⟨rfl, hinc, hlen⟩ := SplineEx.spline_eq h
    by_cases hk : k = 4
    · have := (SplineEx.poly ⟨xs, ys, k⟩).continuous
      have e : lib.eval ⟨xs, ys, k⟩ = fun x => (SplineEx.poly ⟨xs, ys, k⟩).eval x := by
        funext x; simp [lib, curve, hk]
      rw [e]; exact this
    · match hz : xs.zip ys with
      | [] =>
        have e : lib.eval ⟨xs, ys, k⟩ = fun _ => 0 := by
          funext x; simp only [lib, curve, hk, if_false, hz]
        rw [e]; exact continuous_const
      | q :: l =>
        have e : lib.eval ⟨xs, ys, k⟩ = pl q.1 q.2 l := by
          funext x; simp only [lib, curve, hk, if_false, hz]
        rw [e]
        refine pl_cont _ _ _ ?_
        have : (xs.zip ys).map Prod.fst = xs := by rw [List.map_fst_zip hlen.le]
        rw [hz, List.map_cons] at this
        rw [this]; exact hinc
  roots_sound := by
    intro xs ys s h x hx
    by_cases hf : {x | s.InRange x ∧ curve s x = 0}.Finite
    · exact (mem_zeros s hf x).1 hx
    · simp [lib, zeros, hf] at hx
  roots_complete := by
    intro xs ys s _ hf x h1 h2
    exact (mem_zeros s hf x).2 ⟨h1, h2⟩
  roots_sorted := by
    intro xs ys s _
    simp only [lib, zeros]
    split_ifs with h
    · exact Finset.sortedLT_sort _ |>.pairwise
    · exact .nil
  stationary_sound := by
    intro xs ys s h x hx
    obtain ⟨rfl, hinc, hlen⟩ := SplineEx.spline_eq h
    have := SplineEx.correct.stationary_sound xs ys _ h x hx
    have e : lib.eval ⟨xs, ys, 4⟩ = SplineEx.lib.eval ⟨xs, ys, 4⟩ := by
      funext x; simp [lib, curve, SplineEx.lib]
    rw [e]; exact this

/-- Decreasing points make a decreasing curve. -/
theorem curve_anti (pts : List (ℝ × ℝ)) (h : (pts.map Prod.fst).Pairwise (· < ·))
    (hy : (pts.map Prod.snd).Pairwise (· > ·)) (hne : pts ≠ []) :
    StrictAnti (lib.eval ⟨pts.map Prod.fst, pts.map Prod.snd, 3⟩) := by
  match pts, hne with
  | q :: l, _ =>
    have hz : ((q :: l).map Prod.fst).zip ((q :: l).map Prod.snd) = q :: l := by
      rw [List.zip_map']; simp
    have e : lib.eval ⟨(q :: l).map Prod.fst, (q :: l).map Prod.snd, 3⟩ = pl q.1 q.2 l := by
      funext x
      simp only [lib, curve, hz]
      norm_num
    rw [e]
    exact pl_anti _ _ _ h hy

end Pwl
end Verif
