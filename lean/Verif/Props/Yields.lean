import Verif.Lemmas.Yields
/-!
# C08–C11, C41: impacts, correction factors, yields, channel offsets

A bin of the model is addressed as bin `b` of channel `ch`, where `m.channels = pre ++ ch :: post`:
its position in the arrays is the number of bins of the channels in `pre`, plus `b` (see C11 for the
proof that this is the offset the code stores).
-/
namespace Verif.Props
open Verif
variable {n P : Nat}

/-! ## C08 -/

/-- C08, polynomial part: whatever the supplied (variation, value) pairs, if the interpolation
succeeds then the polynomial with the returned coefficients (and no constant term) takes the supplied
value at each supplied variation. -/
theorem c08_polynomial (pos imps c : List ℝ) (h : Sample.interpolateImpact pos imps = .ok c) :
    c.length = pos.length ∧ ∀ i (hi : i < pos.length),
      ∑ k ∈ Finset.range pos.length, c.getD k 0 * pos[i] ^ (k + 1) = imps.getD i 0 :=
  Sample.interp_spec h

/-- C08: the interpolation succeeds for any distinct, non-zero variations. -/
theorem c08_polynomial_exists (pos imps : List ℝ) (hl : pos.length = imps.length) (hn : pos.Nodup)
    (h0 : (0 : ℝ) ∉ pos) : ∃ c, Sample.interpolateImpact pos imps = .ok c :=
  Sample.interp_ok hl hn h0

/-- Three supplied points. -/
example : ∃ c, Sample.interpolateImpact [1, 2, 3] [1/10, 1/5, 1/2] = .ok c ∧
    c.getD 0 0 * 2 + c.getD 1 0 * 2 ^ 2 + c.getD 2 0 * 2 ^ 3 = 1 / 5 := by
  obtain ⟨c, hc⟩ := c08_polynomial_exists [1, 2, 3] [1/10, 1/5, 1/2] rfl (by norm_num) (by norm_num)
  refine ⟨c, hc, ?_⟩
  have := (c08_polynomial _ _ c hc).2 1 (by norm_num)
  simpa [Finset.sum_range_succ] using this

/-- What the user supplied for one NP at pull `t` in bin `b` of a sample: nothing at 0, otherwise
the relative impact recorded for that variation. -/
def SuppliedImpact (smp : Sample) (np : String) (b : Nat) (t imp : ℝ) : Prop :=
  (t = 0 ∧ imp = 0) ∨
  (t ≠ 0 ∧ t ∈ smp.availableVariations np ∧ ∃ r, smp.impact np t = .ok r ∧ imp = r.getD b 0)

/-- C08, end to end.  In a model that uses the asymmetric impacts, in which every sample has, for
each NP, the same number `w` of positive as of negative variations: for pulls which are each 0 or one
of the supplied variations, the correction factor computed by the model for the sample in the bin is
`1 + Σ impacts` (linear mode) or `∏ clamp(1 + impact)` (exponential mode; the clamp to
`[1/100, 100]` is the code's). -/
theorem c08_kexp_reproduces (m : Mdl n P) (w : Nat) (hu : m.Uniform w)
    (ha : m.use_asym_impacts = true) (hvar : m.variations = none)
    (A : Mdl.Arrays) (hA : m.setInternal = .ok A)
    (pre post : List Channel) (ch : Channel) (hch : m.channels = pre ++ ch :: post)
    (s : Nat) (smp : Sample) (hs : ch.samples[s]? = some smp) (b : Nat) (hb : b < ch.nbins)
    (θ imp : Fin P → ℝ) (hθ : ∀ p, SuppliedImpact smp (m.nps p).name b (θ p) (imp p)) :
    m.kExp A θ s ((pre.map (·.nbins)).sum + b) =
      if m.use_linear_nps then 1 + ∑ p, imp p else ∏ p, max (min (1 + imp p) 100) (1 / 100) := by
  have hterm : ∀ p : Fin P, (∑ v ∈ Finset.range A.buf.nvar,
      A.posAt m.nbins P s ((pre.map (·.nbins)).sum + b) p v * (max (θ p) 0) ^ (v + 1)) +
    (∑ v ∈ Finset.range A.buf.nvar,
      A.negAt m.nbins P s ((pre.map (·.nbins)).sum + b) p v * (min (θ p) 0) ^ (v + 1)) =
      Sample.impactVal (!m.use_linear_nps) (imp p) := by
    intro p
    obtain ⟨c, hc, hnv, hval⟩ := Mdl.setInternal_coeffs hu ha hA hch hs p
    obtain ⟨hsh, hu2⟩ := hu ch (by rw [hch]; simp) smp (List.mem_of_getElem? hs)
    obtain ⟨_, _, _, _, _, hpos, hneg⟩ := Sample.impactCoefficients_spec hsh (hu2 p).1 (hu2 p).2 hc
    rw [hnv]
    have e1 : ∀ t : ℝ, ∑ v ∈ Finset.range w,
        A.posAt m.nbins P s ((pre.map (·.nbins)).sum + b) p v * t ^ (v + 1) =
        ∑ v ∈ Finset.range w, (c.pos.getD b []).getD v 0 * t ^ (v + 1) := fun t =>
      Finset.sum_congr rfl fun v hv => by rw [(hval b hb v (Finset.mem_range.1 hv)).1]
    have e2 : ∀ t : ℝ, ∑ v ∈ Finset.range w,
        A.negAt m.nbins P s ((pre.map (·.nbins)).sum + b) p v * t ^ (v + 1) =
        ∑ v ∈ Finset.range w, (c.neg.getD b []).getD v 0 * t ^ (v + 1) := fun t =>
      Finset.sum_congr rfl fun v hv => by rw [(hval b hb v (Finset.mem_range.1 hv)).2]
    rw [e1, e2]
    have z : ∀ f : Nat → ℝ, ∑ v ∈ Finset.range w, f v * (0 : ℝ) ^ (v + 1) = 0 := fun f => by simp
    rcases hθ p with ⟨h0, hi⟩ | ⟨h0, hmem, r, hr, hi⟩
    · rw [h0, hi, max_self, min_self, z, z]
      unfold Sample.impactVal
      split_ifs <;> norm_num
    · rcases lt_or_gt_of_ne h0 with hlt | hgt
      · rw [max_eq_right hlt.le, min_eq_left hlt.le, z, zero_add]
        obtain ⟨r', hr', h⟩ := hneg (θ p) (by
          simp only [Sample.negVars, hvar, List.mem_insertionSort, List.mem_filter, decide_eq_true_eq]
          exact ⟨hmem, hlt⟩) h0
        rw [hr] at hr'
        rw [h b hb, hi, Except.ok.inj hr']
      · rw [max_eq_left hgt.le, min_eq_right hgt.le, z, add_zero]
        obtain ⟨r', hr', h⟩ := hpos (θ p) (by
          simp only [Sample.posVars, hvar, List.mem_insertionSort, List.mem_filter, decide_eq_true_eq]
          exact ⟨hmem, hgt⟩) h0
        rw [hr] at hr'
        rw [h b hb, hi, Except.ok.inj hr']
  have hdelta : m.delta A θ s ((pre.map (·.nbins)).sum + b) =
      ∑ p, Sample.impactVal (!m.use_linear_nps) (imp p) := by
    rw [Mdl.delta, ← Finset.sum_add_distrib]
    exact Finset.sum_congr rfl fun p _ => hterm p
  unfold Mdl.kExp
  rw [if_pos ha, hdelta]
  cases hl : m.use_linear_nps with
  | true => simp [Sample.impactVal]
  | false =>
    simp only [Bool.false_eq_true, if_false, Bool.not_false, Sample.impactVal, if_true, Real.exp_sum]
    refine Finset.prod_congr rfl fun p _ => Real.exp_log ?_
    exact lt_of_lt_of_le (by norm_num) (le_max_right _ _)

/-- C08: with one variation of each sign for every NP and sample, Poisson channels first, and all the
impacts present, the set-up always succeeds. -/
theorem c08_setup_ok (m : Mdl n P) (hu : m.Uniform 1)
    (hord : (m.channels.filter (fun c => !c.gaussian) ++ m.channels.filter (fun c => c.gaussian)) = m.channels)
    (hvar : m.variations = none)
    (himp : ∀ ch ∈ m.channels, ∀ smp ∈ ch.samples, ∀ p : Fin P,
      ∀ v, v = 1 ∨ v ∈ smp.availableVariations (m.nps p).name →
        ∃ r, smp.impact (m.nps p).name v = .ok r) : ∃ A, m.setInternal = .ok A :=
  Mdl.setInternal_ok m hu hord hvar himp

/-- The hypotheses of `c08_kexp_reproduces` are met by the demo model (two samples, two bins, one of
them with per-bin impacts): its arrays can be set up, and for the background in the second bin the
factor at pull −1 is 1 − 1/10. -/
example : ∃ A, (Demo.mdl true true).setInternal = .ok A ∧ (Demo.mdl true true).Uniform 1 ∧
    (Demo.mdl true true).kExp A ![-1] 1 1 = 1 - 1 / 10 := by
  obtain ⟨A, hA⟩ := Demo.internalAsym true
  refine ⟨A, hA, Demo.uniform true, ?_⟩
  have := c08_kexp_reproduces (Demo.mdl true true) 1 (Demo.uniform true) rfl rfl A hA [] []
    ⟨"c", false, 2, fun _ _ => 0, [Demo.sig, Demo.bkg]⟩ rfl 1 Demo.bkg rfl 1 (by norm_num) ![-1] ![-1/10] (by
      intro p
      have : p = 0 := Subsingleton.elim _ _
      subst this
      right
      refine ⟨by norm_num, by norm_num [Demo.mdl, Demo.bkg, Sample.availableVariations, Dict.get?, VarKey.toReal], ?_⟩
      norm_num [Demo.mdl, Demo.bkg, Sample.impact, Dict.get?, lookupVar])
  simp only [List.map_nil, List.sum_nil, Nat.zero_add] at this
  rw [this]
  norm_num [Demo.mdl]

/-- Finding F07: with a different number of variations for different NPs, `set_internal_vars`
enlarges the coefficient arrays with `ndarray.resize`, which moves the coefficients already stored.
Here NP `a` (impact ±1/10) and NP `b` (impact ±1/5) have one variation of each sign and NP `c` has two;
the factor at `a = +1` comes out as 1 + 1/10 + 1/5 instead of 1 + 1/10. -/
theorem c08_mixed_widths_fails : ∃ (m : Mdl 0 3) (A : Mdl.Arrays) (smp : Sample),
    m.use_asym_impacts = true ∧ m.use_linear_nps = true ∧ m.variations = none ∧
    m.channels = [⟨"ch", false, 1, fun _ _ => 0, [smp]⟩] ∧ m.setInternal = .ok A ∧
    SuppliedImpact smp (m.nps 0).name 0 1 (1 / 10) ∧
    m.kExp A ![1, 0, 0] 0 0 = 1 + 1 / 10 + 1 / 5 := by
  obtain ⟨A, hA, h0, h1, hn⟩ := Demo.mixedInternal
  refine ⟨Demo.mixed, A, Demo.mixedSmp, rfl, rfl, rfl, rfl, hA, ?_, ?_⟩
  · right
    refine ⟨one_ne_zero, ?_, ?_⟩
    · simp [Demo.mixed, Demo.mixedSmp, Sample.availableVariations, Dict.get?]
    · simp [Demo.mixed, Demo.mixedSmp, Sample.impact, Dict.get?]
  · simp [Mdl.kExp, Demo.mixed, Mdl.delta, Fin.sum_univ_three, hn, Finset.sum_range_succ]
    simp [Mdl.Arrays.posAt, flatIdx, hn, h0, h1]
    ring

/-- Finding F92: the words 'pos' and 'neg' are accepted as the names of the variations ±1 in the list of the available
variations, but the impacts themselves are looked up under the texts '+1' and '-1': a sample whose impacts are given
under the words announces the variations +1 and −1 and has the impact of neither, whatever the other entries are, as
long as none is the number ±1; computing the interpolation fails. -/
theorem c08_words_fail (s : Sample) (par : String) (d : List (VarKey × ℝ)) (isLog : Bool)
    (h : s.impacts.get? par = some (.common d)) (hp : VarKey.pos ∈ d.map Prod.fst) (hq : VarKey.neg ∈ d.map Prod.fst)
    (h1 : VarKey.num 1 ∉ d.map Prod.fst) (h2 : VarKey.num (-1) ∉ d.map Prod.fst) :
    1 ∈ s.availableVariations par ∧ -1 ∈ s.availableVariations par ∧
    s.impact par 1 = .error .keyError ∧ s.impact par (-1) = .error .keyError ∧
    ∃ e, s.impactCoefficients par none isLog = .error e := by
  have hl : ∀ (d : List (VarKey × ℝ)) (v : ℝ), VarKey.num v ∉ d.map Prod.fst → lookupVar d v = .error .keyError := by
    intro d v
    induction d with
    | nil => intro _; rfl
    | cons a d ih =>
      intro hv
      simp only [List.map_cons, List.mem_cons, not_or] at hv
      obtain ⟨k, y⟩ := a
      rw [lookupVar, if_neg (fun e => hv.1 e.symm)]
      exact ih hv.2
  have hav : s.availableVariations par = d.map (fun kv => kv.1.toReal) := by
    simp [Sample.availableVariations, h]
  have hi : s.impact par 1 = .error .keyError := by
    simp [Sample.impact, h, hl d 1 h1]
  have m1 : 1 ∈ s.availableVariations par := by
    obtain ⟨kv, hkv, e⟩ := List.mem_map.1 hp
    rw [hav]
    exact List.mem_map.2 ⟨kv, hkv, by rw [e]; rfl⟩
  refine ⟨m1, ?_, hi, ?_, ?_⟩
  · obtain ⟨kv, hkv, e⟩ := List.mem_map.1 hq
    rw [hav]
    exact List.mem_map.2 ⟨kv, hkv, by rw [e]; rfl⟩
  · simp [Sample.impact, h, hl d (-1) h2]
  · cases hc : s.impactCoefficients par none isLog with
    | error e => exact ⟨e, rfl⟩
    | ok c =>
      exfalso
      unfold Sample.impactCoefficients at hc
      obtain ⟨posImps, hpi, -⟩ := bind_eq_ok.1 hc
      have hm : (1 : ℝ) ∈ s.posVars par none := by
        simp only [Sample.posVars, List.mem_insertionSort, List.mem_filter]
        exact ⟨m1, by simp⟩
      obtain ⟨r, hr⟩ := mapM_ok_mem hpi 1 hm
      rw [hi] at hr
      cases hr

/-- A sample with the impacts of NP `a` given under the two words. -/
example (isLog : Bool) : ∃ e, (⟨"s", .number 1, 1, [5], [("a", .common [(.pos, 1 / 10), (.neg, -1 / 10)])]⟩ : Sample).impactCoefficients
    "a" none isLog = .error e :=
  (c08_words_fail _ "a" [(.pos, 1 / 10), (.neg, -1 / 10)] isLog rfl (by simp) (by simp) (by simp) (by simp)).2.2.2.2

/-! ## C09 -/

/-- C09: at zero pulls the correction factor is exactly 1, in every mode, cutoff or not, so the
expected yield of each sample in each bin is its nominal yield times `norm / nominal_norm`; where the
normalisation has its nominal value, it is the nominal yield. -/
theorem c09_nominal (m : Mdl n P) (hsh : m.YieldsShaped) (A : Mdl.Arrays) (x : Fin n → ℝ)
    (ne : Nat → Nat → ℝ) (h : m.nExp A x 0 = .ok ne)
    (pre post : List Channel) (ch : Channel) (hch : m.channels = pre ++ ch :: post)
    (s : Nat) (smp : Sample) (hs : ch.samples[s]? = some smp) (b : Nat) (hb : b < ch.nbins) :
    ∃ vals v, m.ctx.realVals x = .ok vals ∧ smp.norm.value vals = .ok v ∧
      ne s ((pre.map (·.nbins)).sum + b) = v / smp.nominal_norm * smp.nominal_yields.getD b 0 ∧
      (v = smp.nominal_norm → ne s ((pre.map (·.nbins)).sum + b) = smp.nominal_yields.getD b 0) := by
  obtain ⟨vals, hv, hc⟩ := Mdl.nExp_inv h
  have hm : ch ∈ m.channels := by rw [hch]; simp
  obtain ⟨v, hval⟩ := hc.value ch hm smp (List.mem_of_getElem? hs)
  have hne := Mdl.nExp_at hsh h hv hch hs hb hval
  rw [Mdl.cutKExp_zero, mul_one] at hne
  refine ⟨vals, v, hv, hval, hne, fun e => ?_⟩
  rw [hne, e, div_self (hc.norm0 ch hm smp (List.mem_of_getElem? hs)), one_mul]

/-- C09: the correction factors themselves. -/
theorem c09_factor (m : Mdl n P) (A : Mdl.Arrays) (s b : Nat) :
    m.kExp A 0 s b = 1 ∧ m.cutKExp A 0 s b = 1 := ⟨m.kExp_zero A s b, m.cutKExp_zero A s b⟩

/-- In the demo model the signal has yield 2·mu in the second bin at zero pulls, the background 6. -/
example (A : Mdl.Arrays) (x : Fin 1 → ℝ) : ∃ ne, (Demo.mdl true true).nExp A x 0 = .ok ne ∧
    ne 0 1 = x 0 * 2 ∧ ne 1 1 = 6 := by
  obtain ⟨ne, hne, _⟩ := Mdl.nExp_ok A 0 (Demo.vals true true x) (Demo.computable true true x)
  have hsh : (Demo.mdl true true).YieldsShaped := by
    intro ch hc smp hm
    simp only [Demo.mdl, List.mem_singleton] at hc
    subst hc
    simp only [List.mem_cons, List.not_mem_nil, or_false] at hm
    rcases hm with rfl | rfl <;> simp [Demo.sig, Demo.bkg]
  refine ⟨ne, hne, ?_, ?_⟩
  · obtain ⟨vals, v, h1, h2, h3, _⟩ := c09_nominal _ hsh A x ne hne [] [] _ rfl 0 Demo.sig rfl 1 (by simp)
    rw [Demo.vals] at h1
    obtain rfl := Except.ok.inj h1
    have : v = x 0 := by
      simp [Demo.sig, Norm.value, Dict.getItem, Dict.get?] at h2
      exact h2.symm
    simpa [Demo.sig, this] using h3
  · obtain ⟨vals, v, h1, h2, h3, _⟩ := c09_nominal _ hsh A x ne hne [] [] _ rfl 1 Demo.bkg rfl 1 (by simp)
    have : v = 2 := by
      simp [Demo.bkg, Norm.value] at h2
      exact h2.symm
    norm_num [Demo.bkg, this] at h3
    exact h3

/-! ## C10 -/

/-- C10: in exponential (log-normal) mode the correction factors are positive at every pull, with or
without asymmetric impacts. -/
theorem c10_positive (m : Mdl n P) (hl : m.use_linear_nps = false) (A : Mdl.Arrays) (θ : Fin P → ℝ)
    (s b : Nat) : 0 < m.kExp A θ s b := by
  unfold Mdl.kExp
  rw [hl]
  split_ifs <;> simp_all [Real.exp_pos]

/-- C10: with a cutoff `c > 0`, every factor lies strictly within `c` of 1, is a strictly increasing
function of the uncut factor, agrees with it at 1 to first order, and hence is positive if `c ≤ 1`. -/
theorem c10_cutoff (m : Mdl n P) (hc : 0 < m.cutoff) (A : Mdl.Arrays) :
    (∀ θ s b, |m.cutKExp A θ s b - 1| < m.cutoff) ∧
    (∀ θ θ' s b s' b', m.kExp A θ s b < m.kExp A θ' s' b' ↔ m.cutKExp A θ s b < m.cutKExp A θ' s' b') ∧
    (∃ g : ℝ → ℝ, (∀ θ s b, m.cutKExp A θ s b = g (m.kExp A θ s b)) ∧ g 1 = 1 ∧ HasDerivAt g 1 1) ∧
    (m.cutoff ≤ 1 → ∀ θ s b, 0 < m.cutKExp A θ s b) := by
  have hne : m.cutoff ≠ 0 := hc.ne'
  have e : ∀ θ s b, m.cutKExp A θ s b = 1 + m.cutoff * Real.tanh ((m.kExp A θ s b - 1) / m.cutoff) := by
    intro θ s b
    simp [Mdl.cutKExp, hne]
  have habs : ∀ θ s b, |m.cutKExp A θ s b - 1| < m.cutoff := by
    intro θ s b
    rw [e, add_sub_cancel_left, abs_mul, abs_of_pos hc]
    nlinarith [Real.abs_tanh_lt_one ((m.kExp A θ s b - 1) / m.cutoff)]
  have hmono : StrictMono Real.tanh := tanh_strictMono
  refine ⟨habs, ?_, ⟨fun k => 1 + m.cutoff * Real.tanh ((k - 1) / m.cutoff), e, by simp, ?_⟩, ?_⟩
  · intro θ θ' s b s' b'
    rw [e, e, add_lt_add_iff_left, mul_lt_mul_iff_right₀ hc, hmono.lt_iff_lt,
      div_lt_div_iff_of_pos_right hc, sub_lt_sub_iff_right]
  · have h1 : HasDerivAt Real.tanh 1 ((1 - 1 : ℝ) / m.cutoff) := by
      have : Real.tanh = fun x => Real.sinh x / Real.cosh x := by
        funext x; exact Real.tanh_eq_sinh_div_cosh x
      rw [this]
      have := (Real.hasDerivAt_sinh ((1 - 1 : ℝ) / m.cutoff)).div
        (Real.hasDerivAt_cosh ((1 - 1 : ℝ) / m.cutoff)) (Real.cosh_pos _).ne'
      exact this.congr_deriv (by simp)
    have h2 : HasDerivAt (fun k : ℝ => (k - 1) / m.cutoff) (1 / m.cutoff) 1 :=
      ((hasDerivAt_id (1 : ℝ)).sub_const 1).div_const _
    have h3 := ((h1.comp (1 : ℝ) h2).const_mul m.cutoff).const_add 1
    have e3 : m.cutoff * (1 * (1 / m.cutoff)) = 1 := by field_simp
    rw [e3] at h3
    exact h3
  · intro h1 θ s b
    have := abs_lt.1 (habs θ s b)
    linarith [this.1]

/-- A model with cutoff 1/2: at pull −1 the background factor 1 − 1/10 is cut to a positive value
below 1. -/
example : ∃ A, (Demo.mdl true true).setInternal = .ok A ∧
    let m := { Demo.mdl true true with cutoff := 1/2 }
    0 < m.cutKExp A ![-1] 1 1 ∧ m.cutKExp A ![-1] 1 1 < m.cutKExp A 0 1 1 := by
  obtain ⟨A, hA⟩ := Demo.internalAsym true
  refine ⟨A, hA, ?_⟩
  have h := c10_cutoff { Demo.mdl true true with cutoff := 1/2 } (by norm_num) A
  refine ⟨h.2.2.2 (by norm_num) _ _ _, ?_⟩
  rw [← h.2.1]
  have hk := c08_kexp_reproduces (Demo.mdl true true) 1 (Demo.uniform true) rfl rfl A hA [] []
    ⟨"c", false, 2, fun _ _ => 0, [Demo.sig, Demo.bkg]⟩ rfl 1 Demo.bkg rfl 1 (by norm_num) ![-1] ![-1/10] (by
      intro p
      have : p = 0 := Subsingleton.elim _ _
      subst this
      right
      refine ⟨by norm_num, by norm_num [Demo.mdl, Demo.bkg, Sample.availableVariations, Dict.get?, VarKey.toReal], ?_⟩
      norm_num [Demo.mdl, Demo.bkg, Sample.impact, Dict.get?, lookupVar])
  simp only [List.map_nil, List.sum_nil, Nat.zero_add] at hk
  have h0 : ({ Demo.mdl true true with cutoff := 1/2 } : Mdl 1 1).kExp A 0 1 1 = 1 := (c09_factor _ A 1 1).1
  rw [h0]
  change (Demo.mdl true true).kExp A ![-1] 1 1 < 1
  rw [hk]
  norm_num [Demo.mdl]

/-! ## C11 -/

/-- C11: the offset stored for a channel is the number of bins of the channels before it; the model's
number of bins is the sum over channels; cutting the vector of bins into the channels' slices and
concatenating them gives it back. -/
theorem c11_partition (m : Mdl n P) (hn : (m.channels.map (·.name)).Nodup) (arr : List ℝ)
    (hl : arr.length = m.nbins) :
    ∃ parts, m.channels.mapM (fun ch => m.channelSlice arr ch.name) = .ok parts ∧
      parts.flatten = arr ∧ parts.map List.length = m.channels.map (·.nbins) := by
  have key : ∀ pre post, m.channels = pre ++ post →
      ∃ parts, post.mapM (fun ch => m.channelSlice arr ch.name) = .ok parts ∧
        parts.flatten = arr.drop (pre.map (·.nbins)).sum ∧
        parts.map List.length = post.map (·.nbins) := by
    intro pre post
    induction post generalizing pre with
    | nil =>
      intro h
      refine ⟨[], rfl, ?_, rfl⟩
      rw [List.append_nil] at h
      rw [← h, ← Mdl.nbins_eq_sum, ← hl]
      simp
    | cons ch post ih =>
      intro h
      obtain ⟨parts, h1, h2, h3⟩ := ih (pre ++ [ch]) (by simpa using h)
      have hs : m.channelSlice arr ch.name = .ok ((arr.drop (pre.map (·.nbins)).sum).take ch.nbins) := by
        simp only [Mdl.channelSlice, Dict.getItem, Mdl.offset_eq hn h,
          Mdl.find_channel hn (show ch ∈ m.channels by rw [h]; simp)]
        rfl
      refine ⟨(arr.drop (pre.map (·.nbins)).sum).take ch.nbins :: parts, ?_, ?_, ?_⟩
      · rw [List.mapM_cons, hs, h1]; rfl
      · rw [List.flatten_cons, h2]
        simp only [List.map_append, List.map_cons, List.map_nil, List.sum_append, List.sum_cons,
          List.sum_nil, Nat.add_zero]
        rw [← List.drop_drop, List.take_append_drop]
      · have : (pre.map (·.nbins)).sum + ch.nbins ≤ arr.length := by
          rw [hl, Mdl.nbins_eq_sum, h]; simp
        simp only [List.map_cons, h3, List.length_take, List.length_drop]
        congr 1
        omega
  simpa using key [] m.channels rfl

/-- Two channels of 2 and 1 bins (the second Gaussian): slices of `[5, 6, 7]`. -/
example : ∃ parts, (Demo.two).channels.mapM (fun ch => Demo.two.channelSlice [5, 6, 7] ch.name) = .ok parts ∧
    parts.flatten = [5, 6, 7] ∧ parts.map List.length = [2, 1] :=
  c11_partition Demo.two (by simp [Demo.two]) [5, 6, 7]
    (by simp [Mdl.nbins_eq_sum, Demo.two])

/-- C11: every bin of the model lies in the range `[offset, offset + nbins)` of exactly one channel. -/
theorem c11_unique_channel (m : Mdl n P) (hn : (m.channels.map (·.name)).Nodup) (b : Nat)
    (hb : b < m.nbins) :
    ∃ ch ∈ m.channels, (∃ o, m.offsets.get? ch.name = some o ∧ o ≤ b ∧ b < o + ch.nbins) ∧
      ∀ ch' ∈ m.channels, (∃ o, m.offsets.get? ch'.name = some o ∧ o ≤ b ∧ b < o + ch'.nbins) →
        ch' = ch := by
  have ex : ∀ pre post, m.channels = pre ++ post → (pre.map (·.nbins)).sum ≤ b →
      ∃ pre' ch post', m.channels = pre' ++ ch :: post' ∧ (pre'.map (·.nbins)).sum ≤ b ∧
        b < (pre'.map (·.nbins)).sum + ch.nbins := by
    intro pre post
    induction post generalizing pre with
    | nil =>
      intro h hle
      rw [List.append_nil] at h
      rw [Mdl.nbins_eq_sum, h] at hb
      omega
    | cons ch post ih =>
      intro h hle
      by_cases hlt : b < (pre.map (·.nbins)).sum + ch.nbins
      · exact ⟨pre, ch, post, h, hle, hlt⟩
      · exact ih (pre ++ [ch]) (by simpa using h) (by simp; omega)
  obtain ⟨pre, ch, post, h, h1, h2⟩ := ex [] m.channels rfl (by simp)
  refine ⟨ch, by rw [h]; simp, ⟨_, Mdl.offset_eq hn h, h1, h2⟩, ?_⟩
  rintro ch' hc' ⟨o, ho, h3, h4⟩
  obtain ⟨pre', post', h'⟩ := List.append_of_mem hc'
  rw [Mdl.offset_eq hn h'] at ho
  obtain rfl := Option.some.inj ho
  -- two positions with overlapping ranges coincide
  rw [h] at h'
  rcases List.append_eq_append_iff.1 h' with ⟨as, e1, e2⟩ | ⟨as, e1, e2⟩
  · cases as with
    | nil => simp at e2; exact e2.1.symm
    | cons a as =>
      simp only [List.cons_append, List.cons.injEq] at e2
      exfalso
      rw [e1, ← e2.1] at h3
      simp at h3; omega
  · cases as with
    | nil => simp at e2; exact e2.1
    | cons a as =>
      simp only [List.cons_append, List.cons.injEq] at e2
      exfalso
      rw [e1, ← e2.1] at h1
      simp at h1; omega

/-- C11: in a model whose internal arrays could be set up, the bins of Poisson channels are the first
`nbins_poisson` ones and those of Gaussian channels come after. -/
theorem c11_poisson_first (m : Mdl n P) (hn : (m.channels.map (·.name)).Nodup) (A : Mdl.Arrays)
    (hA : m.setInternal = .ok A) (ch : Channel) (hch : ch ∈ m.channels) :
    ∃ o, m.offsets.get? ch.name = some o ∧
      (ch.gaussian = false → o + ch.nbins ≤ m.nbinsPoisson) ∧
      (ch.gaussian = true → m.nbinsPoisson ≤ o) := by
  have hre : m.channels.filter (fun c => !c.gaussian) ++ m.channels.filter (fun c => c.gaussian)
      = m.channels := by
    unfold Mdl.setInternal at hA
    simp only at hA
    by_cases h0 : (m.channels.filter (fun c => !c.gaussian) ++
        m.channels.filter (fun c => c.gaussian)).map (·.name) = m.channels.map (·.name)
    swap
    · rw [if_pos h0] at hA; cases hA
    · have hnd := hn
      have hmem : ∀ c ∈ m.channels.filter (fun c => !c.gaussian) ++
          m.channels.filter (fun c => c.gaussian), c ∈ m.channels := by
        intro c hc
        rcases List.mem_append.1 hc with hc | hc <;> exact (List.mem_filter.1 hc).1
      have hinj : ∀ a ∈ m.channels, ∀ b ∈ m.channels, a.name = b.name → a = b :=
        fun a ha b hb => List.inj_on_of_nodup_map hnd ha hb
      refine List.ext_getElem (by simpa using congrArg List.length h0) fun i h1 h2 => ?_
      apply hinj _ (hmem _ (List.getElem_mem _)) _ (List.getElem_mem _)
      have := congrArg (fun l => l[i]?) h0
      simp only [List.getElem?_map, List.getElem?_eq_getElem h1, List.getElem?_eq_getElem h2,
        Option.map_some, Option.some.injEq] at this
      exact this
  have hP : m.nbinsPoisson = ((m.channels.filter (fun c => !c.gaussian)).map (·.nbins)).sum := rfl
  rw [← hre] at hch
  rcases List.mem_append.1 hch with hc | hc
  · obtain ⟨pre, post, h⟩ := List.append_of_mem hc
    have hg : ch.gaussian = false := by simpa using (List.mem_filter.1 hc).2
    have he : m.channels = pre ++ ch :: (post ++ m.channels.filter (fun c => c.gaussian)) := by
      rw [← List.cons_append, ← List.append_assoc, ← h, hre]
    refine ⟨_, Mdl.offset_eq hn he, fun _ => ?_, fun h' => by rw [hg] at h'; cases h'⟩
    rw [hP, h]; simp
  · obtain ⟨pre, post, h⟩ := List.append_of_mem hc
    have hg : ch.gaussian = true := (List.mem_filter.1 hc).2
    have he : m.channels = (m.channels.filter (fun c => !c.gaussian) ++ pre) ++ ch :: post := by
      rw [List.append_assoc, ← h, hre]
    refine ⟨_, Mdl.offset_eq hn he, (fun h' => by rw [hg] at h'; cases h'), fun _ => ?_⟩
    rw [hP]; simp

/-! ## C41 -/

/-- C41.  A sample whose normalisation is a nuisance parameter, and which has no explicit impact for
it, scales with it: after the set-up of its implicit impact, in a model with linear asymmetric impacts
(one variation of each sign, no cutoff), the expected yield in each bin at pull `t` of that NP (others
at 0) is the nominal yield times the physical value of the NP over the nominal norm. -/
theorem c41_np_norm_scales (m : Mdl n P) (hD : m.ctx.Distinct) (p : Fin P)
    (hname : (m.nps p).name ≠ "") (hnom : (m.nps p).nominal_value ≠ 0)
    (hu : m.Uniform 1) (ha : m.use_asym_impacts = true) (hl : m.use_linear_nps = true)
    (hvar : m.variations = none) (hcut : m.cutoff = 0)
    (A : Mdl.Arrays) (hA : m.setInternal = .ok A)
    (pre post : List Channel) (ch : Channel) (hch : m.channels = pre ++ ch :: post)
    (s : Nat) (smp : Sample) (hs : ch.samples[s]? = some smp)
    (rs : RawSample) (hnorm : rs.norm = .expr (m.nps p).name)
    (himp : rs.impacts.get? (m.nps p).name = none) (vals : Dict ℝ)
    (hset : rs.setNpData (List.ofFn m.nps) m.ctx.reals vals m.fuel = .ok smp)
    (x : Fin n → ℝ) (t : ℝ) (ne : Nat → Nat → ℝ) (hne : m.nExp A x (Pi.single p t) = .ok ne)
    (b : Nat) (hb : b < ch.nbins) :
    ne s ((pre.map (·.nbins)).sum + b) =
      smp.nominal_yields.getD b 0 * (m.nps p).unscaledValue t / smp.nominal_norm := by
  have hsh : m.YieldsShaped := fun c hc q hq => (hu c hc q hq).1.1
  obtain ⟨vx, hvx, _⟩ := Mdl.nExp_inv hne
  have hnv := Mdl.np_value hD p hvx
  obtain ⟨e1, e2⟩ := RawSample.setNpData_inv hset
  have hval : smp.norm.value vx = .ok (m.nps p).nominal_value := by
    rw [e1, hnorm, Norm.value, if_neg hname, Dict.getItem, hnv]
  rw [Mdl.nExp_at hsh hne hvx hch hs hb hval]
  have hi : smp.impacts.get? (m.nps p).name = some (.common [
      (.num 1, (m.nps p).variation / (m.nps p).nominal_value),
      (.num (-1), -((m.nps p).variation / (m.nps p).nominal_value))]) :=
    Mdl.implicit_np hD p hnom hnorm himp hset
  have hk := Mdl.kExp_single_linear hu ha hl hvar hA hch hs hb hi t
  rw [Mdl.cutKExp, if_pos hcut, hk, NP.unscaledValue]
  field_simp

/-- The hypotheses are met by a concrete model: NP `n` with nominal value 2 and variation 1, and a
sample of nominal yield 3 normalised to it; at pull −1 the yield is 3·(2−1)/2. -/
example : ∃ (A : Mdl.Arrays) (ne : Nat → Nat → ℝ), Demo.npNorm.setInternal = .ok A ∧
    Demo.npNorm.nExp A ![] (Pi.single 0 (-1)) = .ok ne ∧ ne 0 0 = 3 * (2 - 1) / 2 := by
  obtain ⟨A, hA⟩ := Demo.npNorm_internal
  have hv : Demo.npNorm.ctx.realVals ![] = .ok [("n", 2)] := by
    simp [ExprCtx.realVals, ExprCtx.evalLoop, ExprCtx.base, Mdl.ctx, Demo.npNorm]
  obtain ⟨ne, hne, _⟩ := Mdl.nExp_ok A (Pi.single 0 (-1)) hv Demo.npNorm_computable
  refine ⟨A, ne, hA, hne, ?_⟩
  have := c41_np_norm_scales Demo.npNorm (by simp [ExprCtx.Distinct, Mdl.ctx, Demo.npNorm, Dict.keys]) 0
    (by simp [Demo.npNorm]) (by simp [Demo.npNorm]) Demo.npNorm_uniform rfl rfl rfl rfl A hA [] [] _ rfl
    0 Demo.npNormSmp rfl ⟨"s", .expr "n", some 2, some [3], []⟩ rfl rfl [] Demo.npNorm_set ![] (-1) ne hne
    0 (by norm_num)
  simp only [List.map_nil, List.sum_nil, Nat.zero_add] at this
  rw [this]
  norm_num [Demo.npNormSmp, Demo.npNorm, NP.unscaledValue]

/-- Finding F08: for other expressions of an NP, the implicit impact is computed by dividing by the
nominal value of the NP rather than by the value of the normalisation.  With the normalisation
`f = mu*np` at `mu = 2`, `np = 1 ± 1`, raising `np` by one variation doubles `f` (relative change 1),
but the implicit impact is 2. -/
theorem c41_product_norm_fails : ∃ (par : NP ℝ) (reals : Dict Expr) (vals vals' : Dict ℝ) (v v' imp : ℝ),
    -- `vals` are the values at the nominal NP, `vals'` those one variation above
    vals.get? par.name = some par.nominal_value ∧
    vals'.get? par.name = some (par.unscaledValue 1) ∧
    vals.get? "mu" = vals'.get? "mu" ∧
    (∀ d v, (d = vals ∧ v = vals.get? "f" ∨ d = vals' ∧ v = vals'.get? "f") →
      ∃ e, reals.get? "f" = some e ∧ (e.value d "f").toOption = v) ∧
    (Norm.expr "f").value vals = .ok v ∧ (Norm.expr "f").value vals' = .ok v' ∧
    (Norm.expr "f").implicitImpact par reals vals 2 = .ok (some (.common [(.num 1, imp), (.num (-1), -imp)])) ∧
    imp ≠ v' / v - 1 := by
  refine ⟨⟨"np", 1, 1, none, none⟩,
    [("mu", .single), ("np", .single), ("f", .prodRatio 1 ["mu", "np"] [])],
    [("mu", 2), ("np", 1), ("f", 2)], [("mu", 2), ("np", 2), ("f", 4)], 2, 4, 2, ?_, ?_, ?_, ?_, ?_, ?_, ?_, ?_⟩
  · simp [Dict.get?]
  · norm_num [Dict.get?, NP.unscaledValue]
  · simp [Dict.get?]
  · rintro d v (⟨rfl, rfl⟩ | ⟨rfl, rfl⟩) <;>
    · refine ⟨.prodRatio 1 ["mu", "np"] [], by simp [Dict.get?], ?_⟩
      simp [Expr.value, Expr.lookups, Dict.getItem, Dict.get?, Except.toOption] <;> norm_num
  · simp [Norm.value, Dict.getItem, Dict.get?]
  · simp [Norm.value, Dict.getItem, Dict.get?]
  · simp [Norm.implicitImpact, Expr.gradient, Dict.getItem, Dict.get?, Expr.gradStep, Expr.lookups,
      Expr.prodGradient, Expr.normGradient, List.range_succ]
  · norm_num

end Verif.Props
