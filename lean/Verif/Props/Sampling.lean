import Verif.Lemmas.Sampling
import Verif.Lemmas.Normal
import Verif.Spec.Sampling
/-!
# C27, C28, C47, C48: p-values and quantiles from sampling distributions
-/
namespace Verif.Props
open Verif Verif.Spec Classical

/-! ## C27 -/

/-- C27: whatever the order in which samples were generated, a distribution built from them reports
the mid-p-value of any observed value. -/
theorem c27_midrank (l : List ℝ) (hl : l ≠ []) (n : ℕ) (x : ℝ) :
    SampDist.pv (SampDist.init n (some l)) x = .ok (midP l x) :=
  SampDist.pv_init l hl x

/-- C27: the mid-p-value is between 0 and 1, and does not decrease with the observed value. -/
theorem c27_range_monotone (l : List ℝ) (hl : l ≠ []) :
    (∀ x, 0 ≤ midP l x ∧ midP l x ≤ 1) ∧ Monotone (midP l) := by
  have hn : (0 : ℝ) < l.length := by exact_mod_cast List.length_pos_iff.2 hl
  refine ⟨fun x => ⟨by unfold midP; positivity, ?_⟩, ?_⟩
  · have h1 : (nBelow l x : ℝ) ≤ l.length := by exact_mod_cast List.countP_le_length
    have h2 : (nAtOrBelow l x : ℝ) ≤ l.length := by exact_mod_cast List.countP_le_length
    unfold midP
    rw [div_le_one (by positivity)]; linarith
  · intro x y hxy
    have h1 : (nBelow l x : ℝ) ≤ nBelow l y := by
      exact_mod_cast List.countP_mono_left (by intro a _ h; simp at *; linarith)
    have h2 : (nAtOrBelow l x : ℝ) ≤ nAtOrBelow l y := by
      exact_mod_cast List.countP_mono_left (by intro a _ h; simp at *; linarith)
    unfold midP
    gcongr

/-- C27: the reported p-value does not depend on the order of generation. -/
theorem c27_order_independent (l l' : List ℝ) (h : l.Perm l') (n n' : ℕ) (x : ℝ) :
    SampDist.pv (SampDist.init n (some l)) x = SampDist.pv (SampDist.init n' (some l')) x := by
  show SampDist.pv (SampDist.sort l) x = SampDist.pv (SampDist.sort l') x
  rw [SampDist.sort_congr h]

/-- C27: below all samples the p-value is 0, above all of them 1, and on an isolated peak half of the
peak counts. -/
theorem c27_edges (l : List ℝ) (hl : l ≠ []) (n : ℕ) (x : ℝ) :
    ((∀ y ∈ l, x < y) → SampDist.pv (SampDist.init n (some l)) x = .ok 0) ∧
    ((∀ y ∈ l, y < x) → SampDist.pv (SampDist.init n (some l)) x = .ok 1) ∧
    ((∀ y ∈ l, y = x) → SampDist.pv (SampDist.init n (some l)) x = .ok (1 / 2)) := by
  have hn : (l.length : ℝ) ≠ 0 := by
    have := List.length_pos_iff.2 hl
    positivity
  simp only [c27_midrank l hl n x, midP, nBelow, nAtOrBelow]
  refine ⟨fun h => ?_, fun h => ?_, fun h => ?_⟩
  · have a : l.countP (fun y => decide (y < x)) = 0 := by
      rw [List.countP_eq_zero]; intro y hy; have := h y hy; simp; linarith
    have b : l.countP (fun y => decide (y ≤ x)) = 0 := by
      rw [List.countP_eq_zero]; intro y hy; have := h y hy; simp; linarith
    rw [a, b]; simp
  · have a : l.countP (fun y => decide (y < x)) = l.length := by
      rw [List.countP_eq_length]; intro y hy; have := h y hy; simpa
    have b : l.countP (fun y => decide (y ≤ x)) = l.length := by
      rw [List.countP_eq_length]; intro y hy; have := h y hy; simp; linarith
    rw [a, b, ← two_mul, div_self (by positivity)]
  · have a : l.countP (fun y => decide (y < x)) = 0 := by
      rw [List.countP_eq_zero]; intro y hy; have := h y hy; simp; linarith
    have b : l.countP (fun y => decide (y ≤ x)) = l.length := by
      rw [List.countP_eq_length]; intro y hy; have := h y hy; simp; linarith
    rw [a, b]; congr 1; push_cast; field_simp; simp

/-- C27: generated samples that are saved (with the default sorting) and loaded back, with the same
number required or no requirement, give the same p-values. -/
theorem c27_saved_and_loaded (l : List ℝ) (hl : l ≠ []) (n : ℕ) (hn : n = 0 ∨ n = l.length) (x : ℝ) :
    ∃ l', SampDist.load (SampDist.init n none) (some (SampDist.save l)) = .ok l' ∧
      SampDist.pv l' x = .ok (midP l x) := by
  refine ⟨SampDist.sort l, ?_, c27_midrank l hl 0 x⟩
  rcases hn with rfl | rfl <;> simp [SampDist.load, SampDist.init, SampDist.save]

/-- C27: a file with fewer samples than required is refused. -/
theorem c27_too_few_refused (self file : List ℝ) (h : file.length < self.length) :
    SampDist.load self (some file) = .error .ioError := by
  simp only [SampDist.load]
  rw [if_pos ⟨by omega, h⟩]

/-- Finding: a file with more samples than required is cut to its *first* entries, which, the file
being sorted, are the smallest ones: every p-value can only grow. -/
theorem c27_truncated_load_biased (l : List ℝ) (n : ℕ) (h0 : 0 < n) (hn : n < l.length) (x : ℝ) :
    ∃ l' v, SampDist.load (SampDist.init n none) (some (SampDist.save l)) = .ok l' ∧
      SampDist.pv l' x = .ok v ∧ midP l x ≤ v := by
  have hs := SampDist.sort_sorted l
  have hlen : (SampDist.sort l).length = l.length := SampDist.sort_length l
  have hts : ((SampDist.sort l).take n).Pairwise (· ≤ ·) := hs.sublist (List.take_sublist _ _)
  have htl : ((SampDist.sort l).take n).length = n := by rw [List.length_take, hlen]; omega
  have htne : (SampDist.sort l).take n ≠ [] := by
    intro h; rw [h] at htl; simp at htl; omega
  refine ⟨(SampDist.sort l).take n, _, ?_, SampDist.pv_sorted hts htne x, ?_⟩
  · simp only [SampDist.load, SampDist.init, SampDist.save, if_true, List.length_replicate, hlen]
    rw [if_neg (by omega), if_pos ⟨h0, hn⟩]
  · have hp := SampDist.sort_perm l
    have key : ∀ p : ℝ → Bool, (∀ a b, a ≤ b → p b = true → p a = true) →
        (l.countP p : ℝ) * n ≤ (((SampDist.sort l).take n).countP p : ℝ) * l.length := by
      intro p hp'
      rw [← hp.countP_eq p]
      conv_lhs => rw [← List.take_append_drop n (SampDist.sort l)]
      rw [List.countP_append]
      by_cases hall : ((SampDist.sort l).drop n).countP p = 0
      · rw [hall]
        push_cast
        have : (n : ℝ) ≤ l.length := by exact_mod_cast hn.le
        have h0' : (0 : ℝ) ≤ (((SampDist.sort l).take n).countP p : ℝ) := by positivity
        nlinarith
      · have hfull : ((SampDist.sort l).take n).countP p = n := by
          obtain ⟨b, hb, hpb⟩ := List.countP_pos_iff.1 (Nat.pos_of_ne_zero hall)
          rw [List.countP_eq_length.2, htl]
          intro a ha
          refine hp' a b ?_ hpb
          have := List.pairwise_append.1 (by rw [List.take_append_drop n (SampDist.sort l)]; exact hs :
            ((SampDist.sort l).take n ++ (SampDist.sort l).drop n).Pairwise (· ≤ ·))
          exact this.2.2 a ha b hb
        rw [hfull]
        have hd : (((SampDist.sort l).drop n).countP p : ℝ) ≤ l.length - n := by
          have := List.countP_le_length (p := p) (l := (SampDist.sort l).drop n)
          rw [List.length_drop, hlen] at this
          have h2 : ((l.length - n : ℕ) : ℝ) = (l.length : ℝ) - n := by
            push_cast [Nat.cast_sub hn.le]; ring
          rw [← h2]; exact_mod_cast this
        push_cast
        have : (0 : ℝ) < n := by exact_mod_cast h0
        nlinarith
    have k1 := key (fun y => decide (y < x)) (by intro a b h1 h2; simp at *; linarith)
    have k2 := key (fun y => decide (y ≤ x)) (by intro a b h1 h2; simp at *; linarith)
    rw [htl, div_div]
    unfold midP nBelow nAtOrBelow
    have hln : (0 : ℝ) < l.length := by exact_mod_cast (by omega : 0 < l.length)
    have hn0 : (0 : ℝ) < n := by exact_mod_cast h0
    rw [div_le_div_iff₀ (by positivity) (by positivity)]
    nlinarith

/-- Finding: samples saved without sorting are not sorted when loaded, and the bisection then
miscounts: three samples, two of them below 5/2, give a p-value of 0 instead of 2/3. -/
theorem c27_unsorted_fails :
    ∃ l : List ℝ, ∃ x : ℝ, ∃ l', l ≠ [] ∧
      SampDist.load (SampDist.init l.length none) (some (SampDist.save l false)) = .ok l' ∧
      SampDist.pv l' x ≠ .ok (midP l x) := by
  refine ⟨[2, 3, 1], 5 / 2, [2, 3, 1], by simp, by simp [SampDist.load, SampDist.init, SampDist.save], ?_⟩
  have hL : searchLeft [2, 3, 1] (5 / 2 : ℝ) = 1 := by
    unfold searchLeft
    simp only [List.length_cons, List.length_nil]
    rw [bisect]; norm_num
    rw [bisect]; norm_num
    rw [bisect]; norm_num
  have hR : searchRight [2, 3, 1] (5 / 2 : ℝ) = 1 := by
    unfold searchRight
    simp only [List.length_cons, List.length_nil]
    rw [bisect]; norm_num
    rw [bisect]; norm_num
    rw [bisect]; norm_num
  simp only [SampDist.pv, hL, hR, midP, nBelow, nAtOrBelow]
  intro h
  have := Except.ok.inj (ε := PyErr) h
  norm_num [List.countP_cons] at this

/-- C27: the error reported with the p-value is positive and the p-value is the same. -/
theorem c27_with_error (l : List ℝ) (hl : l ≠ []) (n : ℕ) (x : ℝ) :
    ∃ e, SampDist.pvErr (SampDist.init n (some l)) x = .ok (midP l x, e) ∧ 0 < e := by
  exact SampDist.pvErr_init l hl x

example : SampDist.pv (SampDist.init 0 (some [3, 1, 2, 2])) 2 = .ok (1 / 2) := by
  rw [c27_midrank _ (by simp)]
  norm_num [midP, nBelow, nAtOrBelow, List.countP_cons]

/-! ## C28 -/

/-- C28: for every fraction in `[0, 1)` the quantile of a non-empty distribution exists, is one of the
samples, more than that fraction of the samples is at or below it, and at most that fraction is
strictly below it. -/
theorem c28_quantile (cdf : ℝ → ℝ) (l : List ℝ) (hl : l ≠ []) (n : ℕ) (f : ℝ) (h0 : 0 ≤ f)
    (h1 : f < 1) :
    ∃ q, SampDist.quantile cdf (SampDist.init n (some l)) (some f) none = .ok q ∧ q ∈ l ∧
      f * l.length < nAtOrBelow l q ∧ (nBelow l q : ℝ) ≤ f * l.length := by
  have hp := SampDist.sort_perm l
  have hs := SampDist.sort_sorted l
  have hne : SampDist.sort l ≠ [] := by
    intro h; apply hl; have := hp.length_eq; rw [h] at this; exact List.eq_nil_of_length_eq_zero this.symm
  have hf := SampDist.floor_lt (List.length_pos_iff.2 hne) h0 h1
  refine ⟨_, SampDist.quantile_ok cdf _ hne f h0 h1 none, hp.mem_iff.1 (List.getElem_mem _), ?_, ?_⟩
  · have := SampDist.countP_le_getElem hs _ hf
    rw [hp.countP_eq] at this
    have h2 : ((⌊((SampDist.sort l).length : ℝ) * f⌋₊ : ℝ) + 1) ≤ nAtOrBelow l
        ((SampDist.sort l)[⌊((SampDist.sort l).length : ℝ) * f⌋₊]) := by
      unfold nAtOrBelow; exact_mod_cast this
    have h3 := Nat.lt_floor_add_one (((SampDist.sort l).length : ℝ) * f)
    rw [SampDist.sort_length] at h3
    simp only [SampDist.sort_length] at h2 ⊢
    linarith
  · have := SampDist.countP_lt_getElem hs _ hf
    rw [hp.countP_eq] at this
    have h2 : (nBelow l ((SampDist.sort l)[⌊((SampDist.sort l).length : ℝ) * f⌋₊]) : ℝ) ≤
        (⌊((SampDist.sort l).length : ℝ) * f⌋₊ : ℝ) := by
      unfold nBelow; exact_mod_cast this
    have h3 := Nat.floor_le (a := ((SampDist.sort l).length : ℝ) * f) (by positivity)
    rw [SampDist.sort_length] at h3
    simp only [SampDist.sort_length] at h2 ⊢
    linarith

/-- C28: quantiles do not decrease with the fraction. -/
theorem c28_monotone (cdf : ℝ → ℝ) (l : List ℝ) (n : ℕ) (f g q r : ℝ) (hfg : f ≤ g)
    (hq : SampDist.quantile cdf (SampDist.init n (some l)) (some f) none = .ok q)
    (hr : SampDist.quantile cdf (SampDist.init n (some l)) (some g) none = .ok r) : q ≤ r := by
  have hs := SampDist.sort_sorted l
  simp only [SampDist.quantile, SampDist.init, bind_ok] at hq hr
  by_cases hf : f < 0 ∨ f > 1
  · rw [if_pos hf] at hq; cases hq
  by_cases hg : g < 0 ∨ g > 1
  · rw [if_pos hg] at hr; cases hr
  rw [if_neg hf] at hq; rw [if_neg hg] at hr
  simp only [pure_ok, bind_ok] at hq hr
  have hle : ⌊((SampDist.sort l).length : ℝ) * f⌋₊ ≤ ⌊((SampDist.sort l).length : ℝ) * g⌋₊ := by
    apply Nat.floor_le_floor; gcongr
  by_cases hg' : ⌊((SampDist.sort l).length : ℝ) * g⌋₊ < (SampDist.sort l).length
  · rw [List.getElem?_eq_getElem hg'] at hr
    rw [List.getElem?_eq_getElem (by omega)] at hq
    have hq := Except.ok.inj (ε := PyErr) hq
    have hr := Except.ok.inj (ε := PyErr) hr
    rw [← hq, ← hr]
    exact SampDist.getD_le_of_sorted hs hle hg'
  · rw [List.getElem?_eq_none (by omega)] at hr
    cases hr

/-- C28: the p-value of the `f`-quantile is `f` up to half a sample, when no two samples are equal. -/
theorem c28_pv_of_quantile (cdf : ℝ → ℝ) (l : List ℝ) (hl : l ≠ []) (hnd : l.Nodup) (n : ℕ) (f : ℝ)
    (h0 : 0 ≤ f) (h1 : f < 1) :
    ∃ q v, SampDist.quantile cdf (SampDist.init n (some l)) (some f) none = .ok q ∧
      SampDist.pv (SampDist.init n (some l)) q = .ok v ∧ |v - f| ≤ 1 / (2 * l.length) := by
  obtain ⟨q, hq, hm, ha, hb⟩ := c28_quantile cdf l hl n f h0 h1
  refine ⟨q, _, hq, c27_midrank l hl n q, ?_⟩
  have hn : (0 : ℝ) < l.length := by exact_mod_cast List.length_pos_iff.2 hl
  have h2 : (nAtOrBelow l q : ℝ) ≤ nBelow l q + 1 := by
    exact_mod_cast SampDist.countP_le_countP_add hnd q
  unfold midP
  rw [abs_le, neg_le_sub_iff_le_add, sub_le_iff_le_add]
  constructor
  · rw [← add_div, le_div_iff₀ (by positivity)]; linarith
  · rw [← sub_le_iff_le_add, div_sub' (by positivity), div_le_div_iff_of_pos_right (by positivity)]
    linarith

/-- C28: no quantile is given outside `[0,1]`, without arguments, or from an empty distribution; and
(finding) the fraction 1, which the code accepts as valid, always ends in `IndexError`. -/
theorem c28_refused (cdf : ℝ → ℝ) (l : List ℝ) :
    (∀ f ns, (f < 0 ∨ 1 < f) → SampDist.quantile cdf l (some f) ns = .error .valueError) ∧
    SampDist.quantile cdf l none none = .error .valueError ∧
    (∀ f, 0 ≤ f → f ≤ 1 → SampDist.quantile cdf [] (some f) none = .error .indexError) ∧
    SampDist.quantile cdf l (some 1) none = .error .indexError := by
  refine ⟨fun f ns h => ?_, rfl, fun f h0 h1 => ?_, ?_⟩
  · simp only [SampDist.quantile, bind_ok]; rw [if_pos h]; rfl
  · have : ¬ (f < 0 ∨ f > 1) := by rintro (h | h) <;> linarith
    simp only [SampDist.quantile, bind_ok]; rw [if_neg this]; simp
  · have : ¬ ((1 : ℝ) < 0 ∨ (1 : ℝ) > 1) := by norm_num
    simp only [SampDist.quantile, bind_ok]; rw [if_neg this]; simp

/-! ## C47: CLs from samples -/

/-- C47: the CLs value reported at a hypothesis for which both distributions are available is the
ratio of the two mid-p-values (1 when the background one is 0); it is never below the CLs+b value,
and at most 1 exactly when the background p-value is 0 or at least the signal one. -/
theorem c47_sampled_cls (h : List String → ℕ) (s : CLsSamples) (hypo : Hypo) (lsb lb : List ℝ)
    (n m : ℕ) (h1 : lsb ≠ []) (h2 : lb ≠ [])
    (g1 : s.clsb.dists.getItem h hypo = .ok (SampDist.init n (some lsb)))
    (g2 : s.cl_b.dists.getItem h hypo = .ok (SampDist.init m (some lb))) (x : ℝ) :
    ∃ c, s.pv h hypo x = .ok c ∧
      (0 < midP lb x → c = midP lsb x / midP lb x) ∧ (midP lb x = 0 → c = 1) ∧
      midP lsb x ≤ c ∧ (c ≤ 1 ↔ midP lb x = 0 ∨ midP lsb x ≤ midP lb x) := by
  refine ⟨_, CLsSamples.pv_eq h s hypo lsb lb h1 h2 ((HDict.getItem_ok h _ _ _).1 g1)
    ((HDict.getItem_ok h _ _ _).1 g2) x, ?_⟩
  have r1 := SampDist.midP_range lsb h1 x
  have r2 := SampDist.midP_range lb h2 x
  unfold CLsSamples.clsVal
  rcases r2.1.lt_or_eq with hp | hp
  · rw [if_pos hp]
    refine ⟨fun _ => rfl, fun h => absurd h hp.ne', ?_, ?_⟩
    · rw [le_div_iff₀ hp]; nlinarith
    · rw [div_le_one hp]
      constructor
      · exact Or.inr
      · rintro (h | h)
        · exact absurd h hp.ne'
        · exact h
  · rw [if_neg (by rw [← hp]; exact lt_irrefl _)]
    exact ⟨fun h => absurd h (by rw [← hp]; exact lt_irrefl _), fun _ => rfl, r1.2,
      ⟨fun _ => Or.inl hp.symm, fun _ => le_refl _⟩⟩

/-- C47: asking for the uncertainty does not change the CLs value, and the uncertainty is
not negative. -/
theorem c47_with_error (h : List String → ℕ) (s : CLsSamples) (hypo : Hypo) (lsb lb : List ℝ)
    (n m : ℕ) (h1 : lsb ≠ []) (h2 : lb ≠ [])
    (g1 : s.clsb.dists.getItem h hypo = .ok (SampDist.init n (some lsb)))
    (g2 : s.cl_b.dists.getItem h hypo = .ok (SampDist.init m (some lb))) (x : ℝ) :
    ∃ c e, s.pv h hypo x = .ok c ∧ s.pvErr h hypo x = .ok (c, e) ∧ 0 ≤ e := by
  obtain ⟨e1, p1, e1p⟩ := SampDist.pvErr_init lsb h1 x
  obtain ⟨e2, p2, e2p⟩ := SampDist.pvErr_init lb h2 x
  have r1 := SampDist.midP_range lsb h1 x
  have r2 := SampDist.midP_range lb h2 x
  have key : s.pv h hypo x = .ok (CLsSamples.clsVal lsb lb x) :=
    CLsSamples.pv_eq h s hypo lsb lb h1 h2 ((HDict.getItem_ok h _ _ _).1 g1)
    ((HDict.getItem_ok h _ _ _).1 g2) x
  have q1 : SampDist.pvErr (SampDist.init n (some lsb)) x = .ok (midP lsb x, e1) := p1
  have q2 : SampDist.pvErr (SampDist.init m (some lb)) x = .ok (midP lb x, e2) := p2
  rw [key]
  simp only [CLsSamples.pvErr, Samples.pvErr, g1, g2, bind_ok, q1, q2]
  unfold CLsSamples.clsVal
  rcases r2.1.lt_or_eq with hp | hp
  · rw [if_pos hp, if_neg (not_le.2 hp)]
    rcases r1.1.lt_or_eq with hq | hq
    · rw [if_neg (not_le.2 hq)]
      exact ⟨_, _, rfl, rfl, by positivity⟩
    · rw [if_pos hq.symm.le]
      refine ⟨_, _, rfl, ?_, (div_pos e1p hp).le⟩
      simp [← hq]
  · rw [if_neg (by rw [← hp]; exact lt_irrefl _), if_pos hp.symm.le]
    exact ⟨_, _, rfl, rfl, by norm_num⟩

/-- C47: without samples for the hypothesis the lookup raises `KeyError`. -/
theorem c47_missing (h : List String → ℕ) (s : CLsSamples) (hypo : Hypo) (x : ℝ)
    (g : s.clsb.dists.get? h hypo = none) : s.pv h hypo x = .error .keyError := by
  simp [CLsSamples.pv, Samples.pv, HDict.getItem, g]

/-- The hypotheses of C47 are met, and the CLs value can exceed 1. -/
example : ∃ s : CLsSamples, ∃ c, s.pv (fun _ => 0) [("mu", 1)] 2 = .ok c ∧ 1 < c := by
  refine ⟨⟨⟨[], [([("mu", 1)], SampDist.sort [1])]⟩, ⟨[], [([("mu", 1)], SampDist.sort [3, 1])]⟩⟩, ?_⟩
  have hm : Hypo.matches (fun _ => 0) [("mu", 1)] [("mu", 1)] :=
    Hypo.matches_refl _ (by simp [Hypo.WF, Dict.keys])
  refine ⟨_, CLsSamples.pv_eq _ _ _ [1] [3, 1] (by simp) (by simp) (by simp [HDict.get?, hm])
    (by simp [HDict.get?, hm]) 2, ?_⟩
  norm_num [CLsSamples.clsVal, midP, nBelow, nAtOrBelow, List.countP_cons]

/-! ## C48: expected bands are ordered -/

/-- C48: with a distribution for every hypothesis, every band exists, has one value per
hypothesis, and a band of higher order is nowhere below one of lower order. -/
theorem c48_bands_ordered (h : List String → ℕ) (s : Samples)
    (hd : ∀ hypo ∈ s.hypos, ∃ l n, l ≠ [] ∧ s.dists.getItem h hypo = .ok (SampDist.init n (some l)))
    (i j : ℤ) (hij : i ≤ j) :
    ∃ bi bj, s.band normCdf h i = .ok bi ∧ s.band normCdf h j = .ok bj ∧
      bi.length = s.hypos.length ∧ bj.length = s.hypos.length ∧ List.Forall₂ (· ≤ ·) bi bj := by
  have hd' : ∀ hypo ∈ s.hypos, ∃ l, l ≠ [] ∧ s.dists.get? h hypo = some (SampDist.sort l) := by
    intro hypo hh
    obtain ⟨l, n, hl, hg⟩ := hd hypo hh
    exact ⟨l, hl, (HDict.getItem_ok h _ _ _).1 hg⟩
  obtain ⟨bi, h1, f1⟩ := Samples.band_ok h s i hd'
  obtain ⟨bj, h2, f2⟩ := Samples.band_ok h s j hd'
  exact ⟨bi, bj, h1, h2, f1.length_eq.symm, f2.length_eq.symm,
    Samples.band_mono h s i j hij bi bj f1 f2⟩

/-- C48: each CLs band value is the corresponding normal quantile of the CLs values of the
background samples at that hypothesis, and CLs bands are ordered too. -/
theorem c48_cls_bands (h : List String → ℕ) (s : CLsSamples) (lsb lb : Hypo → List ℝ)
    (hne : s.clsb.hypos ≠ []) (hw : ∀ a ∈ s.clsb.hypos, (Dict.keys a).Nodup)
    (hd : ∀ a ∈ s.clsb.hypos, lsb a ≠ [] ∧ lb a ≠ [] ∧
      s.clsb.dists.getItem h a = .ok (SampDist.init 0 (some (lsb a))) ∧
      s.cl_b.dists.getItem h a = .ok (SampDist.init 0 (some (lb a))))
    (hc : ∀ a ∈ s.clsb.hypos, ∀ b ∈ s.clsb.hypos, a.matches h b → a = b) (i j : ℤ) (hij : i ≤ j) :
    ∃ bi bj, s.band normCdf h i = .ok bi ∧ s.band normCdf h j = .ok bj ∧
      List.Forall₂ (· ≤ ·) bi bj ∧
      List.Forall₂ (fun a q => ∃ cls : List ℝ,
        List.Forall₂ (fun x c => s.pv h a x = .ok c) (lb a) cls ∧
        SampDist.quantile normCdf (SampDist.init 0 (some cls)) none (some i) = .ok q)
        s.clsb.hypos bi := by
  have hd' : ∀ a ∈ s.clsb.hypos, lsb a ≠ [] ∧ lb a ≠ [] ∧
      s.clsb.dists.get? h a = some (SampDist.sort (lsb a)) ∧
      s.cl_b.dists.get? h a = some (SampDist.sort (lb a)) := fun a ha =>
    ⟨(hd a ha).1, (hd a ha).2.1, (HDict.getItem_ok h _ _ _).1 (hd a ha).2.2.1,
      (HDict.getItem_ok h _ _ _).1 (hd a ha).2.2.2⟩
  obtain ⟨d, hdo, hdw, hdg, -⟩ := CLsSamples.clsDists_ok h s lsb lb s.clsb.hypos []
    (by intro kv hkv; cases hkv) hw hd' (fun a ha b hb hm => by rw [hc a ha b hb hm]; exact ⟨rfl, rfl⟩)
  have hdd : ∀ hypo ∈ (Samples.mk s.clsb.hypos d).hypos, ∃ l, l ≠ [] ∧
      (Samples.mk s.clsb.hypos d).dists.get? h hypo = some (SampDist.sort l) := by
    intro a ha
    refine ⟨_, ?_, hdg a ha⟩
    simpa using (hd' a ha).2.1
  obtain ⟨bi, h1, f1⟩ := Samples.band_ok h ⟨s.clsb.hypos, d⟩ i hdd
  obtain ⟨bj, h2, f2⟩ := Samples.band_ok h ⟨s.clsb.hypos, d⟩ j hdd
  refine ⟨bi, bj, ?_, ?_, Samples.band_mono h _ i j hij bi bj f1 f2, ?_⟩
  · simp only [CLsSamples.band]; rw [if_neg hne]; simp only [pure_ok, bind_ok, hdo]; exact h1
  · simp only [CLsSamples.band]; rw [if_neg hne]; simp only [pure_ok, bind_ok, hdo]; exact h2
  · have hall : ∀ a ∈ s.clsb.hypos, ∀ x, s.pv h a x = .ok (CLsSamples.clsVal (lsb a) (lb a) x) :=
      fun a ha x => CLsSamples.pv_eq h s a _ _ (hd' a ha).1 (hd' a ha).2.1 (hd' a ha).2.2.1
        (hd' a ha).2.2.2 x
    have key : ∀ (hs : List Hypo) (b : List ℝ), (∀ a ∈ hs, a ∈ s.clsb.hypos) →
        List.Forall₂ (fun hypo q => ∃ l, l ≠ [] ∧ d.get? h hypo = some (SampDist.sort l) ∧
          SampDist.quantile normCdf (SampDist.sort l) none (some i) = .ok q) hs b →
        List.Forall₂ (fun a q => ∃ cls : List ℝ,
          List.Forall₂ (fun x c => s.pv h a x = .ok c) (lb a) cls ∧
          SampDist.quantile normCdf (SampDist.init 0 (some cls)) none (some i) = .ok q) hs b := by
      intro hs b hsub hf
      induction hf with
      | nil => exact .nil
      | @cons a q hs b ha ht ih =>
        refine .cons ?_ (ih (fun x hx => hsub x (by simp [hx])))
        have ham := hsub a (by simp)
        obtain ⟨l, hl, hg, hq⟩ := ha
        refine ⟨(lb a).map (CLsSamples.clsVal (lsb a) (lb a)), ?_, ?_⟩
        · rw [List.forall₂_map_right_iff, List.forall₂_same]
          exact fun x _ => hall a ham x
        · rw [hdg a ham] at hg
          show SampDist.quantile normCdf (SampDist.sort _) _ _ = _
          rw [Option.some.inj hg]; exact hq
    exact key _ _ (fun a ha => ha) f1

/-- C48: `bands(max_sigma)` returns, in increasing order, the bands of all orders from `-max_sigma`
to `+max_sigma`, each one value per hypothesis, each the quantile at that many standard deviations of
the hypothesis' distribution, and each nowhere below the previous ones. -/
theorem c48_all_orders (h : List String → ℕ) (s : Samples)
    (hd : ∀ hypo ∈ s.hypos, ∃ l n, l ≠ [] ∧ s.dists.getItem h hypo = .ok (SampDist.init n (some l)))
    (ms : ℕ) :
    ∃ bds, s.bands normCdf h ms = .ok bds ∧ bds.length = 2 * ms + 1 ∧
      (∀ k (hk : k < bds.length), (bds[k]).1 = (k : ℤ) - ms) ∧
      (∀ b ∈ bds, List.Forall₂ (fun hypo q => s.quantile normCdf h hypo none (some (b.1 : ℝ)) = .ok q)
        s.hypos b.2) ∧
      bds.Pairwise (fun a b => a.1 < b.1 ∧ List.Forall₂ (· ≤ ·) a.2 b.2) := by
  have hd' : ∀ hypo ∈ s.hypos, ∃ l, l ≠ [] ∧ s.dists.get? h hypo = some (SampDist.sort l) := by
    intro hypo hh
    obtain ⟨l, n, hl, hg⟩ := hd hypo hh
    exact ⟨l, hl, (HDict.getItem_ok h _ _ _).1 hg⟩
  choose b hb hf using fun i => Samples.band_ok h s i hd'
  have hall : ∀ l : List ℤ, l.mapM (fun i => do return (i, ← s.band normCdf h i)) =
      (.ok (l.map fun i => (i, b i)) : Except PyErr _) := by
    intro l
    induction l with
    | nil => rfl
    | cons i l ih => rw [List.mapM_cons, ih, hb]; rfl
  refine ⟨_, hall _, by simp, ?_, ?_, ?_⟩
  · intro k hk; simp
  · intro c hc
    simp only [List.mem_map] at hc
    obtain ⟨i, _, rfl⟩ := hc
    have := hb i
    simp only [Samples.band] at this
    rw [mapM_ok_iff] at this
    exact this
  · rw [List.pairwise_map, List.pairwise_map]
    refine List.Pairwise.imp ?_ List.pairwise_lt_range
    intro i j hij
    have : ((i : ℤ) - ms) < (j : ℤ) - ms := by omega
    exact ⟨this, Samples.band_mono h s _ _ this.le _ _ (hf _) (hf _)⟩

example : ∃ s : Samples, s.hypos.length = 1 ∧ ∀ hypo ∈ s.hypos, ∃ l n, l ≠ [] ∧
    s.dists.getItem (fun _ => 0) hypo = .ok (SampDist.init n (some l)) := by
  refine ⟨⟨[[("mu", 1)]], [([("mu", 1)], SampDist.sort [3, 1, 2])]⟩, rfl, ?_⟩
  intro hypo hh
  simp only [List.mem_singleton] at hh
  subst hh
  have hm : Hypo.matches (fun _ => 0) [("mu", 1)] [("mu", 1)] :=
    Hypo.matches_refl _ (by simp [Hypo.WF, Dict.keys])
  exact ⟨[3, 1, 2], 0, by simp, by simp [HDict.getItem, HDict.get?, hm, SampDist.init]⟩

/-! ## C49: cutting a distribution -/

/-- `x` is within the limits given. -/
def Within (mn mx : Option ℝ) (x : ℝ) : Prop := (∀ a ∈ mn, a ≤ x) ∧ (∀ b ∈ mx, x ≤ b)

/-- C49: with non-zero (or absent) limits, cutting keeps exactly the samples within the limits, ends
included, each as often as before and in the same order. -/
theorem c49_cut (l : List ℝ) (mn mx : Option ℝ) (h1 : mn ≠ some 0) (h2 : mx ≠ some 0) :
    List.Sublist (SampDist.cut l mn mx) l ∧
    ∀ x, (SampDist.cut l mn mx).count x = if Within mn mx x then l.count x else 0 := by
  have key : SampDist.cut l mn mx = l.filter (fun x => decide (Within mn mx x)) := by
    have ht : ∀ o : Option ℝ, o ≠ some 0 → SampDist.truthy o = o := by
      intro o ho
      cases o with
      | none => rfl
      | some a =>
        have : a ≠ 0 := fun h => ho (by rw [h])
        simp [SampDist.truthy, Option.filter, this]
    simp only [SampDist.cut, ht _ h1, ht _ h2]
    cases mn <;> cases mx <;> simp [Within, List.filter_filter, Bool.and_comm]
  rw [key]
  refine ⟨List.filter_sublist, fun x => ?_⟩
  split_ifs with hx
  · rw [List.count_filter (by simpa using hx)]
  · rw [List.count_eq_zero]
    simp [hx]

/-- C49: the p-value of a distribution cut to non-zero limits is the mid-p-value among the samples
within the limits. -/
theorem c49_pv_after_cut (l : List ℝ) (n : ℕ) (mn mx : Option ℝ) (h1 : mn ≠ some 0) (h2 : mx ≠ some 0)
    (hne : ∃ y ∈ l, Within mn mx y) (x : ℝ) :
    SampDist.pv (SampDist.cut (SampDist.init n (some l)) mn mx) x =
      .ok (midP (l.filter (fun y => decide (Within mn mx y))) x) := by
  obtain ⟨hs, hc⟩ := c49_cut (SampDist.sort l) mn mx h1 h2
  have hperm : (SampDist.cut (SampDist.sort l) mn mx).Perm (l.filter (fun y => decide (Within mn mx y))) := by
    rw [List.perm_iff_count]
    intro a
    rw [hc a]
    split_ifs with ha
    · rw [List.count_filter (by simpa using ha)]
      exact (SampDist.sort_perm l).count_eq a
    · symm; rw [List.count_eq_zero]; simp [ha]
  have hsorted : (SampDist.cut (SampDist.sort l) mn mx).Pairwise (· ≤ ·) :=
    (SampDist.sort_sorted l).sublist hs
  have hn : SampDist.cut (SampDist.sort l) mn mx ≠ [] := by
    intro h
    rw [h] at hperm
    have := hperm.symm.eq_nil
    obtain ⟨y, hy, hw⟩ := hne
    have : y ∈ ([] : List ℝ) := by rw [← this]; simp [hy, hw]
    simp at this
  show SampDist.pv (SampDist.cut (SampDist.sort l) mn mx) x = _
  rw [SampDist.pv_sorted hsorted hn, hperm.countP_eq, hperm.countP_eq, hperm.length_eq, div_div]
  rfl

/-- What the code does with a limit of 0: it is ignored, whatever the samples. -/
theorem c49_zero_limit_ignored (l : List ℝ) (o : Option ℝ) :
    SampDist.cut l (some 0) o = SampDist.cut l none o ∧
    SampDist.cut l o (some 0) = SampDist.cut l o none := by
  simp [SampDist.cut, SampDist.truthy, Option.filter]

/-- So the samples outside stay. -/
theorem c49_zero_limit_fails : ∃ l : List ℝ, ∃ x ∈ SampDist.cut l (some 0) none, x < 0 :=
  ⟨[-1, 2], -1, by simp [SampDist.cut, SampDist.truthy, Option.filter], by norm_num⟩

example : SampDist.cut [0, 1, 2, 3] (some 1) (some 2) = [1, 2] := by
  norm_num [SampDist.cut, SampDist.truthy, List.filter_cons, Option.filter]

end Verif.Props
