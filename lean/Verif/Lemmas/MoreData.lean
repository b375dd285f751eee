import Verif.Lemmas.AddChannels
import Verif.Spec.MoreData
/-! # More data -/
namespace Verif
open Mdl

theorem binsOf_times (k : ℝ) (l : List Channel) : binsOf (l.map (Channel.times k)) = binsOf l := by
  simp [binsOf, Channel.times, Function.comp_def]

theorem Sample.Std.times {s : Sample} {nb : Nat} (h : s.Std nb) (k : ℝ) :
    Sample.Std { s with nominal_yields := s.nominal_yields.map fun y => k * y } nb :=
  ⟨by simpa using h.1, h.2⟩

namespace Mdl
variable {n P : Nat} {m : Mdl n P}

theorem times_std (k : ℝ) (hs : ∀ ch ∈ m.channels, 0 < ch.nbins ∧ ∀ s ∈ ch.samples, s.Std ch.nbins) :
    ∀ ch ∈ (m.times k).channels, 0 < ch.nbins ∧ ∀ s ∈ ch.samples, s.Std ch.nbins := by
  intro ch hc
  obtain ⟨c, h1, rfl⟩ := List.mem_map.1 hc
  refine ⟨(hs c h1).1, fun s hm => ?_⟩
  obtain ⟨s, h2, rfl⟩ := List.mem_map.1 hm
  exact ((hs c h1).2 s h2).times k

theorem times_order (k : ℝ) (ho : PoissonFirst m.channels) : PoissonFirst (m.times k).channels := by
  unfold PoissonFirst at *
  simpa [times, Channel.times, Function.comp_def] using ho

theorem times_set (k : ℝ) (hvar : m.variations = none)
    (hs : ∀ ch ∈ m.channels, 0 < ch.nbins ∧ ∀ s ∈ ch.samples, s.Std ch.nbins) (ho : PoissonFirst m.channels) :
    ∃ A', (m.times k).setInternal = .ok A' :=
  setInternal_of_std (m := m.times k) hvar (times_std k hs) (times_order k ho)

theorem getD_times (k : ℝ) (l : List ℝ) (b : Nat) : (l.map fun y => k * y).getD b 0 = k * l.getD b 0 := by
  simp only [List.getD_eq_getElem?_getD, List.getElem?_map]
  cases l[b]? <;> simp

theorem times_impact (k : ℝ) (s : Sample) (par : String) :
    Sample.impact { s with nominal_yields := s.nominal_yields.map fun y => k * y } par = s.impact par := by
  funext v
  unfold Sample.impact
  simp only [List.length_map]

theorem times_term (k : ℝ) (s : Sample) : 
    Sample.term { s with nominal_yields := s.nominal_yields.map fun y => k * y } = s.term := by
  funext a l vs par b t
  have h1 : Sample.impactCoefficients { s with nominal_yields := s.nominal_yields.map fun y => k * y } par vs =
      s.impactCoefficients par vs := by
    funext g
    unfold Sample.impactCoefficients
    rw [times_impact]
    simp only [List.length_map]
    rfl
  have h2 : Sample.symImpact { s with nominal_yields := s.nominal_yields.map fun y => k * y } par = s.symImpact par := by
    unfold Sample.symImpact
    rw [times_impact]
    try rfl
  unfold Sample.term
  rw [h1, h2]

theorem times_yield (k : ℝ) (vals : Dict ℝ) (θ : Fin P → ℝ) (s : Sample) (b : Nat) :
    (m.times k).sampleYield vals θ { s with nominal_yields := s.nominal_yields.map fun y => k * y } b =
      k * m.sampleYield vals θ s b := by
  unfold sampleYield
  dsimp only
  rw [getD_times, times_term]
  have : ∀ X : ℝ, normVal vals s.norm / s.nominal_norm * (k * s.nominal_yields.getD b 0) * X =
    k * (normVal vals s.norm / s.nominal_norm * s.nominal_yields.getD b 0 * X) := fun X => by ring
  rw [this]
  rfl

theorem times_tot (k : ℝ) (hvar : m.variations = none)
    (hs : ∀ ch ∈ m.channels, 0 < ch.nbins ∧ ∀ s ∈ ch.samples, s.Std ch.nbins) {A : Arrays}
    (hA : m.setInternal = .ok A) {A' : Arrays}
    (hA' : (m.times k).setInternal = .ok A') {x : Fin n → ℝ} {θ : Fin P → ℝ} {N : Nat → ℝ}
    (hN : m.totBinExp A x θ = .ok N) :
    ∃ N', (m.times k).totBinExp A' x θ = .ok N' ∧ ∀ b < binsOf m.channels, N' b = k * N b := by
  obtain ⟨vals, hv, hc, -⟩ := tot_inv hN
  have hs' := times_std k hs
  have hu := uniform_of_std hvar hs
  have hu' : (m.times k).Uniform 1 := uniform_of_std hvar hs'
  have hv' : (m.times k).ctx.realVals x = .ok vals := hv
  have hc' : (m.times k).Computable vals := by
    refine ⟨shapeOk_of_yieldsShaped (uniform_shaped hu'), fun ch h s hm => ?_, fun ch h s hm => ?_⟩ <;>
      (obtain ⟨c, h1, rfl⟩ := List.mem_map.1 h
       obtain ⟨s, h2, rfl⟩ := List.mem_map.1 hm)
    · exact hc.norm0 c h1 s h2
    · exact hc.value c h1 s h2
  refine ⟨_, tot_ok A' θ hv' hc', fun j hj => ?_⟩
  obtain ⟨p, ch, q, b, h1, h2, rfl⟩ := locate m.channels j hj
  have e2 := tot_at hu hA hN hv (ch := ch) (pre := p) (post := q) h1 h2
  have e1 := tot_at hu' hA' (tot_ok A' θ hv' hc') hv' (ch := ch.times k) (pre := p.map (Channel.times k))
    (post := q.map (Channel.times k)) (by simp [times, h1]) (b := b) h2
  have e3 : ((p.map (Channel.times k)).map (·.nbins)).sum = (p.map (·.nbins)).sum := binsOf_times k p
  rw [e3] at e1
  unfold binsOf
  rw [e1, e2]
  simp only [Channel.times, List.map_map, Function.comp_def, times_yield]
  rw [List.sum_map_mul_left]

theorem chanTerms_times (k : ℝ) (l : List Channel) (off : Bool) (N N0 c : Nat → ℝ) :
    chanTerms (l.map (Channel.times k)) off N N0 c = chanTerms l off N N0 c := by
  induction l generalizing N N0 c with
  | nil => rfl
  | cons a l ih =>
    rw [List.map_cons, chanTerms_cons, chanTerms_cons a, ← ih]
    rfl

/-- Increments grow with the data. -/
theorem chanTerms_more {k : ℝ} (hk : 1 ≤ k) (l : List Channel) (off : Bool) (N N0 c : Nat → ℝ) (hH : ∀ ch ∈ l, HessOk ch)
    (hN : OnPoisson l fun b => 0 < N b) (hc : OnPoisson l fun b => 0 < c b)
    (h0 : off = true → OnPoisson l fun b => 0 < N0 b) :
    chanTerms l off N N0 c - chanTerms l off c N0 c ≤
      chanTerms l off (fun b => k * N b) (fun b => k * N0 b) (fun b => k * c b) -
      chanTerms l off (fun b => k * c b) (fun b => k * N0 b) (fun b => k * c b) := by
  induction l generalizing N N0 c with
  | nil => exact le_refl _
  | cons a l ih =>
    have i1 := ih (fun b => N (a.nbins + b)) (fun b => N0 (a.nbins + b)) (fun b => c (a.nbins + b))
      (fun ch h => hH ch (by simp [h])) hN.tail hc.tail fun h => (h0 h).tail
    have i2 := chanTerms_min [a] off N N0 c (fun ch h => hH ch (by simp only [List.mem_singleton] at h; simp [h]))
      hN.head hc.head fun h => (h0 h).head
    rw [chanTerms_cons a l off N, chanTerms_cons a l off c N0 c, chanTerms_cons a l off (fun b => k * N b),
      chanTerms_cons a l off (fun b => k * c b)]
    have key : ∃ t, 1 ≤ t ∧ chanTerms [a] off (fun b => k * N b) (fun b => k * N0 b) (fun b => k * c b) -
        chanTerms [a] off (fun b => k * c b) (fun b => k * N0 b) (fun b => k * c b) =
        t * (chanTerms [a] off N N0 c - chanTerms [a] off c N0 c) := by
      simp only [chanTerms, blockSum, add_zero]
      unfold chVal
      by_cases hg : a.gaussian = true
      · refine ⟨k * k, by nlinarith, ?_⟩
        rw [if_pos hg, if_pos hg, if_pos hg, if_pos hg]
        have e : ∀ M : Nat → ℝ, ∑ i ∈ Finset.range a.nbins, ∑ j ∈ Finset.range a.nbins,
            termU off (k * M i) (k * N0 i) (k * c i) * a.hessian i j * termV off (k * M j) (k * N0 j) (k * c j) =
            k * k * ∑ i ∈ Finset.range a.nbins, ∑ j ∈ Finset.range a.nbins,
            termU off (M i) (N0 i) (c i) * a.hessian i j * termV off (M j) (N0 j) (c j) := by
          intro M
          rw [Finset.mul_sum]
          refine Finset.sum_congr rfl fun i _ => ?_
          rw [Finset.mul_sum]
          refine Finset.sum_congr rfl fun j _ => ?_
          cases off <;> simp only [termU, termV, if_true, Bool.false_eq_true, if_false] <;> ring
        rw [e N, e c]
        ring
      · refine ⟨k, hk, ?_⟩
        rw [if_neg hg, if_neg hg, if_neg hg, if_neg hg]
        have hg : a.gaussian = false := by simpa using hg
        rw [← Finset.sum_sub_distrib, ← Finset.sum_sub_distrib, Finset.mul_sum]
        refine Finset.sum_congr rfl fun b hb => ?_
        have hb := Finset.mem_range.1 hb
        have hk0 : 0 < k := by linarith
        have p1 : 0 < N b := by simpa [binsOf] using hN [] a l rfl hg b hb
        have p2 : 0 < c b := by simpa [binsOf] using hc [] a l rfl hg b hb
        cases off with
        | false =>
          simp only [termP, floorOf, Bool.false_eq_true, if_false]
          rw [Real.log_mul hk0.ne' p1.ne', Real.log_mul hk0.ne' p2.ne']
          ring
        | true =>
          simp only [termP, floorOf, if_true]
          rw [mul_div_mul_left _ _ hk0.ne', mul_div_mul_left _ _ hk0.ne']
          ring
    obtain ⟨t, ht, ek⟩ := key
    have : chanTerms [a] off N N0 c - chanTerms [a] off c N0 c ≤
        t * (chanTerms [a] off N N0 c - chanTerms [a] off c N0 c) := by
      nlinarith
    linarith

end Mdl
end Verif
