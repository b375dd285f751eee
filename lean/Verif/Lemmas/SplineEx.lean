import Verif.Lemmas.Scans
import Verif.Spec.Spline
import Mathlib.LinearAlgebra.Lagrange
import Mathlib.Analysis.Calculus.Deriv.Polynomial
import Mathlib.Data.Finset.Sort
/-!
# An interpolation that satisfies the contract of `Spec/Spline.lean`

Lagrange polynomials.  This only shows that `SplineLib.Correct` can be met; nothing else uses it.
-/
namespace Verif
open Classical Polynomial

namespace SplineEx

/-- The polynomial through the points. -/
noncomputable def poly (s : Spl) : ℝ[X] :=
  Lagrange.interpolate Finset.univ (fun i : Fin s.xs.length => s.xs[i]) (fun i => s.ys[(i : ℕ)]?.getD 0)

/-- The zeros of a polynomial within the range, sorted; none if there are infinitely many. -/
noncomputable def zeros (s : Spl) (p : ℝ[X]) : List ℝ :=
  if h : {x | s.InRange x ∧ p.eval x = 0}.Finite then h.toFinset.sort (· ≤ ·) else []

theorem mem_zeros (s : Spl) (p : ℝ[X]) (h : {x | s.InRange x ∧ p.eval x = 0}.Finite) (x : ℝ) :
    x ∈ zeros s p ↔ s.InRange x ∧ p.eval x = 0 := by
  simp [zeros, h]

theorem zeros_finite (s : Spl) (p : ℝ[X]) (h : p ≠ 0) : {x | s.InRange x ∧ p.eval x = 0}.Finite := by
  refine (p.roots.toFinset.finite_toSet).subset ?_
  rintro x ⟨_, hx⟩
  simp [h, hx]

/-- Lagrange interpolation as a spline library. -/
noncomputable def lib : SplineLib where
  eval s x := (poly s).eval x
  roots s := zeros s (poly s)
  stationary s := zeros s (derivative (poly s))

theorem spline_eq {xs ys : List ℝ} {k : ℕ} {s : Spl} (h : Scan.spline xs ys k = .ok s) :
    s = ⟨xs, ys, k⟩ ∧ xs.Pairwise (· < ·) ∧ xs.length = ys.length := by
  simp only [Scan.spline] at h
  split_ifs at h with hc
  cases h
  exact ⟨rfl, hc.1, hc.2.1⟩

theorem inj_nodes {xs : List ℝ} (h : xs.Pairwise (· < ·)) :
    Set.InjOn (fun i : Fin xs.length => xs[i]) (Finset.univ : Finset (Fin xs.length)) := by
  intro i _ j _ hij
  have hn : xs.Nodup := h.imp (fun h => ne_of_lt h)
  exact Fin.ext ((List.Nodup.getElem_inj_iff hn).1 hij)

theorem correct : lib.Correct where
  interp := by
    intro xs ys k s h p hp
    obtain ⟨rfl, hinc, hlen⟩ := spline_eq h
    obtain ⟨i, hi, rfl⟩ := List.mem_iff_getElem.1 hp
    have hi1 : i < xs.length := by simp at hi; omega
    have hi2 : i < ys.length := by omega
    have := Lagrange.eval_interpolate_at_node (s := Finset.univ)
      (fun i : Fin xs.length => ys[(i : ℕ)]?.getD 0) (inj_nodes hinc) (Finset.mem_univ ⟨i, hi1⟩)
    simp only [List.getElem_zip]
    simpa [lib, poly, hi2] using this
  cont := by
    intro xs ys k s _
    exact (poly s).continuous
  roots_sound := by
    intro xs ys s h x hx
    by_cases hf : {x | s.InRange x ∧ (poly s).eval x = 0}.Finite
    · exact (mem_zeros s _ hf x).1 hx
    · simp [lib, zeros, hf] at hx
  roots_complete := by
    intro xs ys s _ hf x h1 h2
    exact (mem_zeros s _ hf x).2 ⟨h1, h2⟩
  roots_sorted := by
    intro xs ys s _
    simp only [lib, zeros]
    split_ifs with h
    · exact Finset.sortedLT_sort _ |>.pairwise
    · exact .nil
  stationary_sound := by
    intro xs ys s h x hx
    by_cases hf : {x | s.InRange x ∧ (derivative (poly s)).eval x = 0}.Finite
    · obtain ⟨h1, h2⟩ := (mem_zeros s _ hf x).1 hx
      exact ⟨h1, by have := (poly s).hasDerivAt x; rwa [h2] at this⟩
    · simp [lib, zeros, hf] at hx

end SplineEx
end Verif
