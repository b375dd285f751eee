import Verif.Model.DumpSamples
import Verif.Lemmas.TestStat
import Verif.Lemmas.Except
import Mathlib.MeasureTheory.Integral.IntervalIntegral.FundThmCalculus
/-! Helper lemmas for C90. -/
namespace Verif.Dump
open Verif Verif.Cmd MeasureTheory

theorem piece {f g : ℝ → ℝ} (hf : Continuous f) (hg : ∀ t, 0 ≤ g t) (hd : ∀ t, t ≠ 0 → HasDerivAt f (-(g t)) t)
    {a b : ℝ} (hab : a ≤ b) (h : ∀ t ∈ Set.Ioo a b, t ≠ 0) :
    IntervalIntegrable g volume a b ∧ ∫ t in a..b, g t = f a - f b := by
  have hd' : ∀ t ∈ Set.Ioo a b, HasDerivAt (fun u => -f u) (g t) t := by
    intro t ht
    have := (hd t (h t ht)).neg
    rwa [neg_neg] at this
  have hc : ContinuousOn (fun u => -f u) (Set.Icc a b) := by fun_prop
  have hi : IntervalIntegrable g volume a b := by
    rw [intervalIntegrable_iff_integrableOn_Ioc_of_le hab]
    exact intervalIntegral.integrableOn_deriv_of_nonneg hc hd' (fun t _ => hg t)
  refine ⟨hi, ?_⟩
  rw [intervalIntegral.integral_eq_sub_of_hasDerivAt_of_le hab hc hd' hi]; ring

theorem density_integral {f g : ℝ → ℝ} (hf : Continuous f) (hg : ∀ t, 0 ≤ g t)
    (hd : ∀ t, t ≠ 0 → HasDerivAt f (-(g t)) t) {a b : ℝ} (hab : a ≤ b) :
    IntervalIntegrable g volume a b ∧ ∫ t in a..b, g t = f a - f b := by
  by_cases h : a < 0 ∧ 0 < b
  · obtain ⟨h1, h2⟩ := h
    obtain ⟨i1, e1⟩ := piece hf hg hd h1.le (fun t ht => ht.2.ne)
    obtain ⟨i2, e2⟩ := piece hf hg hd h2.le (fun t ht => ht.1.ne')
    refine ⟨i1.trans i2, ?_⟩
    rw [← intervalIntegral.integral_add_adjacent_intervals i1 i2, e1, e2]; ring
  · refine piece hf hg hd hab (fun t ht ht0 => h ?_)
    subst ht0; exact ht

/-- The integral that `quad` computes, when the density is minus the derivative of the p-value. -/
theorem quad_eq {F : ℝ → Except PyErr ℝ} {f g : ℝ → ℝ} (hF : ∀ t, F t = .ok (g t)) (hf : Continuous f)
    (hg : ∀ t, 0 ≤ g t) (hd : ∀ t, t ≠ 0 → HasDerivAt f (-(g t)) t) {a b : ℝ} (hab : a ≤ b) :
    quad F a b = .ok (f a - f b) := by
  unfold quad
  rw [if_pos (fun t _ => ⟨g t, hF t⟩)]
  have : (fun t => (F t).toOption.getD 0) = g := by funext t; simp [hF t, Except.toOption]
  rw [this, (density_integral hf hg hd hab).2]

theorem run_ok {E : Env} {o : Opts} {p : Plot} (h : run E o = .ok p) :
    ∃ r d s hh, xRange E.lib o = .ok r ∧ hypoData E o = .ok d ∧ shown E.samples d o = .ok s ∧
      histogram s.1 o.nbins r.1 r.2 = .ok hh ∧ optReference o E.samples.length s.2 r.1 r.2 = .ok p.ref ∧
      p.values = s.1 ∧ p.edges = hh.1 ∧ p.counts = hh.2 := by
  unfold run at h
  obtain ⟨r, h1, h⟩ := bind_eq_ok.1 h
  obtain ⟨d, h2, h⟩ := bind_eq_ok.1 h
  obtain ⟨s, h3, h⟩ := bind_eq_ok.1 h
  obtain ⟨hh, h4, h⟩ := bind_eq_ok.1 h
  obtain ⟨ref, h5, h⟩ := bind_eq_ok.1 h
  cases Except.ok.inj (ε := PyErr) h
  exact ⟨r, d, s, hh, h1, h2, h3, h4, h5, rfl, rfl, rfl⟩

theorem edge_succ (lo hi : ℝ) (n i : ℕ) : edge lo hi n (i + 1) = edge lo hi n i + (hi - lo) / n := by
  unfold edge; push_cast; ring

theorem edge_zero (lo hi : ℝ) (n : ℕ) : edge lo hi n 0 = lo := by simp [edge]

theorem edge_last (lo hi : ℝ) (n : ℕ) (hn : 0 < n) : edge lo hi n n = hi := by
  unfold edge
  have : (n : ℝ) ≠ 0 := by positivity
  field_simp; ring

theorem edge_mono (lo hi : ℝ) (n : ℕ) (h : lo < hi) (hn : 0 < n) : StrictMono (edge lo hi n) := by
  refine strictMono_nat_of_lt_succ fun i => ?_
  rw [edge_succ]
  have : 0 < (hi - lo) / n := div_pos (by linarith) (by positivity)
  linarith

theorem xx_eq (lo hi : ℝ) (n : ℕ) : linspace lo hi ((n : Int) + 1) true = .ok ((List.range (n + 1)).map (edge lo hi n)) := by
  unfold linspace
  rw [if_neg (by omega)]
  congr 1
  rw [show ((n : Int) + 1).toNat = n + 1 by omega]
  refine List.map_congr_left fun i _ => ?_
  simp [edge]

theorem dropLast_xx (f : ℕ → ℝ) (n : ℕ) : ((List.range (n + 1)).map f).dropLast = (List.range n).map f := by
  rw [List.range_succ, List.map_append, List.map_cons, List.map_nil, List.dropLast_concat]

theorem xx_cons (f : ℕ → ℝ) (k : ℕ) :
    (List.range (k + 1 + 1)).map f = f 0 :: f 1 :: (List.range k).map fun i => f (i + 2) := by
  rw [List.range_succ_eq_map, List.range_succ_eq_map]
  simp only [List.map_cons, List.map_map]
  rfl

theorem heights_eq (total : ℕ) (pdf : Option (ℝ → Except PyErr ℝ)) (n : ℕ) (lo hi : ℝ) (y : ℕ → ℝ)
    (hS : ∀ F, pdf = some F → ∀ i, ∃ v, quad F (edge lo hi n i) (edge lo hi n (i + 1)) = .ok v ∧ y i = total * v)
    (hN : pdf = none → ∀ i, y i = total * ((hi - lo) / n)) :
    heights total pdf ((List.range n).map (edge lo hi n)) ((hi - lo) / n) = .ok ((List.range n).map y) := by
  unfold heights
  cases pdf with
  | none =>
    dsimp only
    congr 1
    rw [List.map_map]
    exact List.map_congr_left fun i _ => (hN rfl i).symm
  | some F =>
    dsimp only
    rw [mapM_ok_iff, List.forall₂_map_left_iff, List.forall₂_map_right_iff, List.forall₂_same]
    intro i _
    obtain ⟨v, hv, hyv⟩ := hS F rfl i
    rw [← edge_succ, hv, hyv]; rfl

/-- The reference curve. -/
theorem reference_eq (total : ℕ) (pdf : Option (ℝ → Except PyErr ℝ)) (n : ℕ) (hn : 0 < n) (lo hi : ℝ) (y : ℕ → ℝ)
    (hS : ∀ F, pdf = some F → ∀ i, ∃ v, quad F (edge lo hi n i) (edge lo hi n (i + 1)) = .ok v ∧ y i = total * v)
    (hN : pdf = none → ∀ i, y i = total * ((hi - lo) / n)) :
    reference total pdf n lo hi =
      .ok ((List.range n).map fun i => ((edge lo hi n i + edge lo hi n (i + 1)) / 2, y i)) := by
  have hh := heights_eq total pdf n lo hi y hS hN
  unfold reference
  rw [xx_eq, bind_ok]
  obtain ⟨k, rfl⟩ : ∃ k, n = k + 1 := ⟨n - 1, by omega⟩
  rw [xx_cons]
  dsimp only
  rw [← xx_cons, dropLast_xx]
  have hdx : edge lo hi (k + 1) 1 - edge lo hi (k + 1) 0 = (hi - lo) / ((k + 1 : ℕ) : ℝ) := by
    rw [edge_succ lo hi (k + 1) 0]; ring
  have hmid : ∀ i, edge lo hi (k + 1) i + (hi - lo) / ((k + 1 : ℕ) : ℝ) / 2 =
      (edge lo hi (k + 1) i + edge lo hi (k + 1) (i + 1)) / 2 := by
    intro i; rw [edge_succ]; ring
  rw [hdx, hh, bind_ok, pure_ok, List.map_map, List.zip_map']
  congr 1
  refine List.map_congr_left fun i _ => ?_
  simp only [Function.comp, hmid]

theorem hist_ok {vs : List ℝ} {n : Int} {lo hi : ℝ} {hh : List ℝ × List ℕ} (h : histogram vs n lo hi = .ok hh) :
    1 ≤ n ∧ lo ≤ hi ∧ (lo < hi → hh.1 = (List.range (n.toNat + 1)).map (edge lo hi n.toNat) ∧
      hh.2 = (List.range n.toNat).map (content vs lo hi n.toNat)) := by
  unfold histogram at h
  by_cases hc : n < 1 ∨ hi < lo
  · rw [if_pos hc] at h; cases h
  · rw [if_neg hc] at h
    push Not at hc
    refine ⟨hc.1, hc.2, fun hlt => ?_⟩
    rw [if_neg hlt.ne, if_neg hlt.ne] at h
    cases Except.ok.inj (ε := PyErr) h
    exact ⟨rfl, rfl⟩

theorem countP_split (vs : List ℝ) (p q r : ℝ → Prop) [DecidablePred p] [DecidablePred q] [DecidablePred r] (h : ∀ v, r v ↔ p v ∨ q v) (hn : ∀ v, ¬ (p v ∧ q v)) :
    (vs.countP fun v => decide (p v)) + (vs.countP fun v => decide (q v)) = vs.countP fun v => decide (r v) := by
  induction vs with
  | nil => simp
  | cons v vs ih =>
    simp only [List.countP_cons, decide_eq_true_eq]
    have h1 := h v
    have h2 := hn v
    by_cases a1 : p v <;> by_cases a2 : q v
    · exact absurd ⟨a1, a2⟩ h2
    · rw [if_pos a1, if_neg a2, if_pos (h1.2 (Or.inl a1))]; omega
    · rw [if_neg a1, if_pos a2, if_pos (h1.2 (Or.inr a2))]; omega
    · rw [if_neg a1, if_neg a2, if_neg (fun hr => (h1.1 hr).elim a1 a2)]; omega

open Classical in
/-- The first bins together contain the values below their upper edge. -/
theorem content_partial (vs : List ℝ) (lo hi : ℝ) (n : ℕ) (h : lo < hi) (hn : 0 < n) (k : ℕ) (hk : k < n) :
    ((List.range k).map (content vs lo hi n)).sum = vs.countP fun v => decide (lo ≤ v ∧ v < edge lo hi n k) := by
  induction k with
  | zero =>
    rw [edge_zero]
    symm
    rw [List.range_zero, List.map_nil, List.sum_nil, List.countP_eq_zero]
    intro v _ hv
    have := of_decide_eq_true hv
    linarith [this.1, this.2]
  | succ k ih =>
    rw [List.range_succ, List.map_append, List.sum_append, ih (by omega)]
    simp only [List.map_cons, List.map_nil, List.sum_cons, List.sum_nil, add_zero]
    have hm := edge_mono lo hi n h hn
    have h1 : lo ≤ edge lo hi n k := by have := hm.monotone (Nat.zero_le k); rwa [edge_zero] at this
    have h2 := hm (Nat.lt_succ_self k)
    simp only [Nat.succ_eq_add_one] at h2
    unfold content
    refine countP_split vs _ _ _ (fun v => ?_) (fun v => ?_)
    · constructor
      · rintro ⟨a, b⟩
        rcases lt_or_ge v (edge lo hi n k) with c | c
        · exact Or.inl ⟨a, c⟩
        · exact Or.inr ⟨c, Or.inl b⟩
      · rintro (⟨a, b⟩ | ⟨a, b | ⟨b, _⟩⟩)
        · exact ⟨a, b.trans h2⟩
        · exact ⟨h1.trans a, b⟩
        · omega
    · rintro ⟨⟨_, b⟩, c, _⟩
      linarith

open Classical in
/-- The bins together contain the values in the range. -/
theorem content_sum (vs : List ℝ) (lo hi : ℝ) (n : ℕ) (h : lo < hi) (hn : 0 < n) :
    ((List.range n).map (content vs lo hi n)).sum = vs.countP fun v => decide (lo ≤ v ∧ v ≤ hi) := by
  obtain ⟨k, rfl⟩ : ∃ k, n = k + 1 := ⟨n - 1, by omega⟩
  rw [List.range_succ, List.map_append, List.sum_append, content_partial vs lo hi (k + 1) h hn k (by omega)]
  simp only [List.map_cons, List.map_nil, List.sum_cons, List.sum_nil, add_zero]
  have hm := edge_mono lo hi (k + 1) h hn
  have h1 : lo ≤ edge lo hi (k + 1) k := by have := hm.monotone (Nat.zero_le k); rwa [edge_zero] at this
  have h2 := hm (Nat.lt_succ_self k)
  have hl := edge_last lo hi (k + 1) hn
  simp only [Nat.succ_eq_add_one] at h2
  unfold content
  refine countP_split vs _ _ _ (fun v => ?_) (fun v => ?_)
  · rw [hl] at h2 ⊢
    constructor
    · rintro ⟨a, b⟩
      rcases lt_or_ge v (edge lo hi (k + 1) k) with c | c
      · exact Or.inl ⟨a, c⟩
      · exact Or.inr ⟨c, b.lt_or_eq.imp id (fun e => ⟨rfl, e⟩)⟩
    · rintro (⟨a, b⟩ | ⟨a, b | ⟨_, b⟩⟩)
      · exact ⟨a, (b.trans h2).le⟩
      · exact ⟨h1.trans a, b.le⟩
      · exact ⟨h1.trans a, b.le⟩
  · rintro ⟨⟨_, b⟩, c, _⟩
    linarith

end Verif.Dump
