import Verif.Props.Sampler
import Verif.Props.Sampling
import Verif.Spec.Coverage
import Mathlib.Probability.Independence.InfinitePi
import Mathlib.Probability.BorelCantelli
/-!
# Ranks of exchangeable values, and the attempts of a sampler

Helper lemmas for the coverage of the p-values computed from generated samples (C75).
-/
namespace Verif.Coverage
open Verif Verif.Spec MeasureTheory ProbabilityTheory
open scoped ENNReal

/-! ## Ranks -/

/-- Twice the mid-rank of the value at `j` among those at the other indices of `J`. -/
noncomputable def rank {ι : Type*} [DecidableEq ι] (J : Finset ι) (T : ι → ℝ) (j : ι) : ℕ :=
  ∑ i ∈ J.erase j, ((if T i < T j then 1 else 0) + (if T i ≤ T j then 1 else 0))

theorem rank_eq {ι : Type*} [DecidableEq ι] (J : Finset ι) (T : ι → ℝ) (j : ι) :
    rank J T j = ((J.erase j).filter (fun i => T i < T j)).card + ((J.erase j).filter (fun i => T i ≤ T j)).card := by
  simp [rank, Finset.sum_add_distrib]

/-- At most `c + 1` indices have a doubled mid-rank up to `c`. -/
theorem card_rank_le {ι : Type*} [DecidableEq ι] (J : Finset ι) (T : ι → ℝ) (c : ℕ) :
    (J.filter (fun j => rank J T j ≤ c)).card ≤ c + 1 := by
  rcases (J.filter (fun j => rank J T j ≤ c)).eq_empty_or_nonempty with h | h
  · simp [h]
  obtain ⟨j, hj, hmax⟩ := Finset.exists_max_image _ T h
  rw [Finset.mem_filter] at hj
  have hsub : J.filter (fun j => rank J T j ≤ c) ⊆ insert j ((J.erase j).filter (fun i => T i ≤ T j)) := by
    intro i hi
    by_cases hij : i = j
    · simp [hij]
    · have h1 := hmax i hi
      rw [Finset.mem_filter] at hi
      simp [hij, hi.1, h1]
  have h1 := Finset.card_le_card hsub
  have h2 := Finset.card_insert_le j ((J.erase j).filter (fun i => T i ≤ T j))
  have h3 := rank_eq J T j
  omega

/-- Without ties, exactly `k + 1` indices have a doubled mid-rank up to `c`, where `k = ⌊c/2⌋` is less than their number. -/
theorem card_rank_eq {ι : Type*} [DecidableEq ι] (J : Finset ι) (T : ι → ℝ) (hT : Set.InjOn T J) (c : ℕ)
    (hc : c / 2 < J.card) : (J.filter (fun j => rank J T j ≤ c)).card = c / 2 + 1 := by
  have hb : ∀ j ∈ J, rank J T j = 2 * (J.filter (fun i => T i < T j)).card := by
    intro j hj
    rw [rank_eq, two_mul]
    have e1 : (J.erase j).filter (fun i => T i < T j) = J.filter (fun i => T i < T j) := by
      ext i; simp only [Finset.mem_filter, Finset.mem_erase]
      constructor
      · rintro ⟨⟨-, h⟩, h'⟩; exact ⟨h, h'⟩
      · rintro ⟨h, h'⟩; exact ⟨⟨fun e => by rw [e] at h'; exact lt_irrefl _ h', h⟩, h'⟩
    have e2 : (J.erase j).filter (fun i => T i ≤ T j) = J.filter (fun i => T i < T j) := by
      ext i; simp only [Finset.mem_filter, Finset.mem_erase]
      constructor
      · rintro ⟨⟨hne, h⟩, h'⟩; exact ⟨h, lt_of_le_of_ne h' (fun e => hne (hT h hj e))⟩
      · rintro ⟨h, h'⟩; exact ⟨⟨fun e => by rw [e] at h'; exact lt_irrefl _ h', h⟩, h'.le⟩
    rw [e1, e2]
  set B : ι → ℕ := fun j => (J.filter (fun i => T i < T j)).card with hB
  have hmono : ∀ i ∈ J, ∀ j ∈ J, T i < T j → B i < B j := by
    intro i hi j hj hij
    refine Finset.card_lt_card ⟨fun k hk => ?_, fun hs => ?_⟩
    · simp only [Finset.mem_filter] at hk ⊢
      exact ⟨hk.1, hk.2.trans hij⟩
    · have := hs (show i ∈ J.filter (fun k => T k < T j) by simp [hi, hij])
      simp at this
  have hinj : Set.InjOn B J := by
    intro i hi j hj e
    rcases lt_trichotomy (T i) (T j) with h | h | h
    · exact absurd e (hmono i hi j hj h).ne
    · exact hT hi hj h
    · exact absurd e.symm (hmono j hj i hi h).ne
  have himg : J.image B = Finset.range J.card := by
    refine Finset.eq_of_subset_of_card_le (fun b hb' => ?_) ?_
    · obtain ⟨j, hj, rfl⟩ := Finset.mem_image.1 hb'
      rw [Finset.mem_range]
      refine Finset.card_lt_card ⟨Finset.filter_subset _ _, fun hs => ?_⟩
      have := hs hj
      simp at this
    · rw [Finset.card_range, Finset.card_image_of_injOn hinj]
  have e1 : J.filter (fun j => rank J T j ≤ c) = J.filter (fun j => B j ∈ Finset.range (c / 2 + 1)) := by
    refine Finset.filter_congr (fun j hj => ?_)
    rw [hb j hj, Finset.mem_range]
    simp only [hB]
    omega
  rw [e1, ← Finset.card_image_of_injOn (f := B) (hinj.mono (fun x hx => (Finset.mem_filter.1 hx).1))]
  have e2 : (J.filter (fun j => B j ∈ Finset.range (c / 2 + 1))).image B = Finset.range (c / 2 + 1) := by
    ext b
    simp only [Finset.mem_image, Finset.mem_filter, Finset.mem_range]
    constructor
    · rintro ⟨j, ⟨-, h⟩, rfl⟩; exact h
    · intro h
      have : b ∈ J.image B := by rw [himg, Finset.mem_range]; omega
      obtain ⟨j, hj, rfl⟩ := Finset.mem_image.1 this
      exact ⟨j, ⟨hj, h⟩, rfl⟩
  rw [e2, Finset.card_range]

/-- Ranks under a permutation of the indices. -/
theorem rank_perm {ι : Type*} [DecidableEq ι] (J : Finset ι) (σ : Equiv.Perm ι) (hσ : ∀ i, σ i ∈ J ↔ i ∈ J)
    (T : ι → ℝ) (j : ι) : rank J (fun i => T (σ i)) j = rank J T (σ j) := by
  unfold rank
  refine Finset.sum_equiv σ (fun i => ?_) (fun i _ => rfl)
  simp [hσ]

/-! ## Exchangeable sequences -/
section exch
variable {X : Type*} [MeasurableSpace X]

theorem measurable_rank (J : Finset ℕ) (V : X → ℝ) (hV : Measurable V) (j : ℕ) :
    Measurable (fun d : ℕ → X => rank J (fun i => V (d i)) j) := by
  unfold rank
  refine Finset.measurable_sum _ (fun i _ => ?_)
  have h : ∀ k : ℕ, Measurable (fun d : ℕ → X => V (d k)) := fun k => hV.comp (measurable_pi_apply k)
  exact (Measurable.ite (measurableSet_lt (h i) (h j)) measurable_const measurable_const).add
    (Measurable.ite (measurableSet_le (h i) (h j)) measurable_const measurable_const)

/-- The chance that the value at one index has a small rank, on an event that does not distinguish this index from the
other ones. -/
theorem rank_sum (ν : Measure X) [IsProbabilityMeasure ν] (V : X → ℝ) (J : Finset ℕ) (i₀ : ℕ) (hi₀ : i₀ ∈ J)
    (E : Set (ℕ → X))
    (hE : ∀ j ∈ J, ∀ d : ℕ → X, (fun i => d (Equiv.swap i₀ j i)) ∈ E ↔ d ∈ E) (c : ℕ) (j : ℕ) (hj : j ∈ J) :
    Measurable V → MeasurableSet E →
    Measure.infinitePi (fun _ : ℕ => ν) (E ∩ {d | rank J (fun i => V (d i)) i₀ ≤ c}) =
      Measure.infinitePi (fun _ : ℕ => ν) (E ∩ {d | rank J (fun i => V (d i)) j ≤ c}) := by
  intro hV hEm
  have hmp : MeasurePreserving (fun (d : ℕ → X) (i : ℕ) => d (Equiv.swap i₀ j i))
      (Measure.infinitePi (fun _ : ℕ => ν)) (Measure.infinitePi (fun _ : ℕ => ν)) :=
    ⟨by fun_prop, Measure.map_infinitePi_infinitePi_of_inj (P := fun _ : ℕ => ν) (Equiv.swap i₀ j).injective⟩
  have hm : MeasurableSet (E ∩ {d : ℕ → X | rank J (fun i => V (d i)) i₀ ≤ c}) :=
    hEm.inter (measurableSet_le (measurable_rank J V hV i₀) measurable_const)
  rw [← hmp.measure_preimage hm.nullMeasurableSet]
  congr 1
  ext d
  have hσ : ∀ i, Equiv.swap i₀ j i ∈ J ↔ i ∈ J := by
    intro i
    by_cases h1 : i = i₀
    · subst h1; simp [hi₀, hj]
    by_cases h2 : i = j
    · subst h2; simp [hi₀, hj]
    rw [Equiv.swap_apply_of_ne_of_ne h1 h2]
  have := rank_perm J (Equiv.swap i₀ j) hσ (fun i => V (d i)) i₀
  rw [Equiv.swap_apply_left] at this
  simp only [Set.mem_preimage, Set.mem_inter_iff, Set.mem_setOf_eq, hE j hj d, this]

theorem rank_total (ν : Measure X) [IsProbabilityMeasure ν] (V : X → ℝ) (hV : Measurable V) (J : Finset ℕ) (i₀ : ℕ)
    (hi₀ : i₀ ∈ J) (E : Set (ℕ → X)) (hEm : MeasurableSet E)
    (hE : ∀ j ∈ J, ∀ d : ℕ → X, (fun i => d (Equiv.swap i₀ j i)) ∈ E ↔ d ∈ E) (c : ℕ) :
    J.card * Measure.infinitePi (fun _ : ℕ => ν) (E ∩ {d | rank J (fun i => V (d i)) i₀ ≤ c}) =
      ∫⁻ d in E, (J.filter (fun j => rank J (fun i => V (d i)) j ≤ c)).card ∂Measure.infinitePi (fun _ : ℕ => ν) := by
  have hm : ∀ j, MeasurableSet {d : ℕ → X | rank J (fun i => V (d i)) j ≤ c} :=
    fun j => measurableSet_le (measurable_rank J V hV j) measurable_const
  have h1 : ∀ d : ℕ → X, ((J.filter (fun j => rank J (fun i => V (d i)) j ≤ c)).card : ℝ≥0∞) =
      ∑ j ∈ J, Set.indicator {d : ℕ → X | rank J (fun i => V (d i)) j ≤ c} (fun _ => 1) d := by
    intro d
    rw [Finset.card_filter, Nat.cast_sum]
    refine Finset.sum_congr rfl (fun j _ => ?_)
    by_cases h : rank J (fun i => V (d i)) j ≤ c <;> simp [h]
  simp only [h1]
  rw [lintegral_finsetSum _ (fun j _ => measurable_const.indicator (hm j))]
  have h2 : ∀ j ∈ J, ∫⁻ d in E, Set.indicator {d : ℕ → X | rank J (fun i => V (d i)) j ≤ c} (fun _ => 1) d
      ∂Measure.infinitePi (fun _ : ℕ => ν) =
      Measure.infinitePi (fun _ : ℕ => ν) (E ∩ {d | rank J (fun i => V (d i)) i₀ ≤ c}) := by
    intro j hj
    rw [lintegral_indicator_const (hm j), one_mul, Measure.restrict_apply (hm j),
      rank_sum ν V J i₀ hi₀ E hE c j hj hV hEm, Set.inter_comm]
  rw [Finset.sum_congr rfl h2, Finset.sum_const, nsmul_eq_mul]

theorem rank_bound (ν : Measure X) [IsProbabilityMeasure ν] (V : X → ℝ) (hV : Measurable V) (J : Finset ℕ) (i₀ : ℕ)
    (hi₀ : i₀ ∈ J) (E : Set (ℕ → X)) (hEm : MeasurableSet E)
    (hE : ∀ j ∈ J, ∀ d : ℕ → X, (fun i => d (Equiv.swap i₀ j i)) ∈ E ↔ d ∈ E) (c : ℕ) :
    J.card * Measure.infinitePi (fun _ : ℕ => ν) (E ∩ {d | rank J (fun i => V (d i)) i₀ ≤ c}) ≤
      ((c + 1 : ℕ) : ℝ≥0∞) * Measure.infinitePi (fun _ : ℕ => ν) E := by
  rw [rank_total ν V hV J i₀ hi₀ E hEm hE c]
  refine (lintegral_mono (g := fun _ => ((c + 1 : ℕ) : ℝ≥0∞)) (fun d => ?_)).trans ?_
  · exact Nat.cast_le.2 (card_rank_le J _ c)
  · simp

/-- The same as an equality, when ties have no chance. -/
theorem rank_exact (ν : Measure X) [IsProbabilityMeasure ν] (V : X → ℝ) (hV : Measurable V) (J : Finset ℕ) (i₀ : ℕ)
    (hi₀ : i₀ ∈ J) (E : Set (ℕ → X)) (hEm : MeasurableSet E)
    (hE : ∀ j ∈ J, ∀ d : ℕ → X, (fun i => d (Equiv.swap i₀ j i)) ∈ E ↔ d ∈ E) (c : ℕ) (hc : c / 2 < J.card)
    (hT : ∀ᵐ d ∂Measure.infinitePi (fun _ : ℕ => ν), d ∈ E → Set.InjOn (fun i => V (d i)) J) :
    J.card * Measure.infinitePi (fun _ : ℕ => ν) (E ∩ {d | rank J (fun i => V (d i)) i₀ ≤ c}) =
      ((c / 2 + 1 : ℕ) : ℝ≥0∞) * Measure.infinitePi (fun _ : ℕ => ν) E := by
  rw [rank_total ν V hV J i₀ hi₀ E hEm hE c]
  have : ∀ᵐ d ∂(Measure.infinitePi (fun _ : ℕ => ν)).restrict E,
      ((J.filter (fun j => rank J (fun i => V (d i)) j ≤ c)).card : ℝ≥0∞) = ((c / 2 + 1 : ℕ) : ℝ≥0∞) := by
    rw [ae_restrict_iff' hEm]
    filter_upwards [hT] with d hd hdE
    rw [card_rank_eq J _ (hd hdE) c hc]
  rw [lintegral_congr_ae this]
  simp

end exch

/-! ## The attempts of a sampler -/

/-- The value of an attempt. -/
noncomputable def valueOf : Except PyErr (Option ℝ) → ℝ
  | .ok (some v) => v
  | _ => 0

/-- `p` is the set of successful attempts, from attempt `i` up to the last of them, all other ones being failed ones. -/
def Pattern (r : ℕ → Except PyErr (Option ℝ)) (i : ℕ) (p : Finset ℕ) : Prop :=
  (∀ j ∈ p, i ≤ j ∧ ∃ v, r j = .ok (some v)) ∧ ∀ j, i ≤ j → j ∉ p → (∃ j' ∈ p, j < j') → r j = .ok none

theorem toys_pattern (r : ℕ → Except PyErr (Option ℝ)) (mt fuel todo k i : ℕ) (s l : List ℝ)
    (hlen : s.length = k + todo) (h : Sampler.toys r mt fuel todo k i s = some (.ok l)) :
    ∃ p, p.card = todo ∧ Pattern r i p ∧ l = s.take k ++ (p.sort (· ≤ ·)).map (fun j => valueOf (r j)) := by
  induction todo generalizing k i s with
  | zero =>
    have h := Except.ok.inj (ε := PyErr) (Option.some.inj h)
    subst h
    exact ⟨∅, rfl, ⟨by simp, by simp⟩, by simp [List.take_of_length_le (show s.length ≤ k by omega)]⟩
  | succ todo ih =>
    unfold Sampler.toys at h
    split at h
    · cases h
    · cases h
    · rename_i v i' ht
      obtain ⟨q, hq, hf, hv, rfl⟩ := (Props.toy_ok r mt fuel i 0 v i').1 ht
      obtain ⟨p, hc, ⟨hp1, hp2⟩, hl⟩ := ih (k + 1) (i + q + 1) (s.set k v) (by simp; omega) h
      have hmem : i + q ∉ p := fun hm => by have := (hp1 _ hm).1; omega
      refine ⟨insert (i + q) p, by rw [Finset.card_insert_of_notMem hmem, hc], ⟨?_, ?_⟩, ?_⟩
      · intro j hj
        rcases Finset.mem_insert.1 hj with rfl | hj
        · exact ⟨by omega, v, hv⟩
        · exact ⟨by have := (hp1 j hj).1; omega, (hp1 j hj).2⟩
      · rintro j hij hj ⟨j', hj', hlt⟩
        rw [Finset.mem_insert, not_or] at hj
        by_cases h1 : j < i + q
        · exact hf j hij h1
        · rcases Finset.mem_insert.1 hj' with rfl | hj'
          · omega
          · exact hp2 j (by omega) hj.2 ⟨j', hj', hlt⟩
      · rw [hl, Finset.sort_insert (· ≤ ·) (fun b hb => by have := (hp1 b hb).1; omega) hmem, List.map_cons,
          List.take_succ, List.take_set_of_le (le_refl k), hv]
        simp [show k < s.length by omega, valueOf]

theorem pattern_toys (r : ℕ → Except PyErr (Option ℝ)) (mt M todo k i : ℕ) (s : List ℝ) (p : Finset ℕ)
    (hc : p.card = todo) (hp : Pattern r i p) (hM : ∀ j ∈ p, j < M) :
    ∃ l, Sampler.toys r mt M todo k i s = some (.ok l) := by
  induction todo generalizing k i s p with
  | zero => exact ⟨s, rfl⟩
  | succ todo ih =>
    have hne : p.Nonempty := Finset.card_pos.1 (by omega)
    obtain ⟨hp1, hp2⟩ := hp
    have hmin := p.min'_mem hne
    obtain ⟨hi, v, hv⟩ := hp1 _ hmin
    have ht : Sampler.toy r mt M i 0 = some (.ok (v, p.min' hne + 1)) := by
      refine (Props.toy_ok r mt M i 0 v _).2 ⟨p.min' hne - i, ?_, ?_, ?_, ?_⟩
      · have := hM _ hmin; omega
      · intro j h1 h2
        have hlt : j < p.min' hne := by omega
        exact hp2 j h1 (fun hj => absurd (p.min'_le j hj) (by omega)) ⟨_, hmin, hlt⟩
      · rw [← hv]; congr 1; omega
      · omega
    obtain ⟨l, hl⟩ := ih (k + 1) (p.min' hne + 1) (s.set k v) (p.erase (p.min' hne))
      (by rw [Finset.card_erase_of_mem hmin, hc]; rfl)
      ⟨fun j hj => ⟨by
          have h1 := Finset.mem_erase.1 hj
          have h2 := p.min'_le j h1.2
          have h3 := h1.1
          omega, (hp1 j (Finset.mem_of_mem_erase hj)).2⟩,
        fun j h1 h2 ⟨j', h3, h4⟩ => hp2 j (by omega)
          (fun hj => h2 (Finset.mem_erase.2 ⟨by omega, hj⟩)) ⟨j', Finset.mem_of_mem_erase h3, h4⟩⟩
      (fun j hj => hM j (Finset.mem_of_mem_erase hj))
    exact ⟨l, by simp only [Sampler.toys, ht]; exact hl⟩

theorem generate_pattern (r : ℕ → Except PyErr (Option ℝ)) (mt n fuel : ℕ) (l : List ℝ)
    (h : Sampler.generate r mt n fuel = some (.ok l)) :
    ∃ p, p.card = n ∧ Pattern r 0 p ∧ l = (p.sort (· ≤ ·)).map (fun j => valueOf (r j)) := by
  obtain ⟨p, h1, h2, h3⟩ := toys_pattern r mt fuel n 0 0 _ l (by simp [SampDist.init]) h
  exact ⟨p, h1, h2, by simpa using h3⟩

theorem pattern_generate (r : ℕ → Except PyErr (Option ℝ)) (mt n : ℕ) (p : Finset ℕ) (hc : p.card = n)
    (hp : Pattern r 0 p) : ∃ fuel l, Sampler.generate r mt n fuel = some (.ok l) := by
  obtain ⟨l, hl⟩ := pattern_toys r mt (p.sup id + 1) n 0 0 (SampDist.init n none) p hc hp
    (fun j hj => Nat.lt_succ_of_le (Finset.le_sup (f := id) hj))
  exact ⟨_, l, hl⟩

theorem pattern_unique (r : ℕ → Except PyErr (Option ℝ)) (p q : Finset ℕ) (hc : p.card = q.card)
    (hp : Pattern r 0 p) (hq : Pattern r 0 q) : p = q := by
  by_contra hne
  have h1 : ∃ i ∈ p, i ∉ q := by
    by_contra h
    push Not at h
    exact hne (Finset.eq_of_subset_of_card_le h hc.symm.le)
  have h2 : ∃ i ∈ q, i ∉ p := by
    by_contra h
    push Not at h
    exact hne (Finset.eq_of_subset_of_card_le h hc.le).symm
  obtain ⟨i, hip, hiq⟩ := h1
  obtain ⟨j, hjq, hjp⟩ := h2
  rcases lt_trichotomy i j with h | h | h
  · obtain ⟨v, hv⟩ := (hp.1 i hip).2
    have := hq.2 i (Nat.zero_le _) hiq ⟨j, hjq, h⟩
    rw [hv] at this; cases this
  · subst h; exact hiq hjq
  · obtain ⟨v, hv⟩ := (hq.1 j hjq).2
    have := hp.2 j (Nat.zero_le _) hjp ⟨i, hip, h⟩
    rw [hv] at this; cases this

/-- The p-value of an observation among the generated samples, in terms of ranks: index 0 is the observation, index `i + 1`
attempt `i`. -/
theorem midP_rank (r : ℕ → Except PyErr (Option ℝ)) (p : Finset ℕ) (T : ℕ → ℝ)
    (hT : ∀ i, T (i + 1) = valueOf (r i)) :
    Spec.midP ((p.sort (· ≤ ·)).map (fun j => valueOf (r j))) (T 0) =
      (rank (insert 0 (p.image (· + 1))) T 0 : ℝ) / (2 * p.card) := by
  have he : (insert 0 (p.image (· + 1))).erase 0 = p.image (· + 1) := by
    rw [Finset.erase_insert]; simp
  have hcount : ∀ (f : ℝ → Bool), List.countP f ((p.sort (· ≤ ·)).map (fun j => valueOf (r j))) =
      (p.filter (fun j => f (valueOf (r j)))).card := by
    intro f
    rw [List.countP_map, List.countP_eq_length_filter,
      ← List.toFinset_card_of_nodup ((p.sort_nodup _).filter _), List.toFinset_filter, Finset.sort_toFinset]
    rfl
  have hi : ∀ (f : ℝ → Prop) [DecidablePred f], ((p.image (· + 1)).filter (fun j => f (T j))).card =
      (p.filter (fun j => f (valueOf (r j)))).card := by
    intro f _
    rw [Finset.filter_image, Finset.card_image_of_injective _ (fun a b h => by simpa using h)]
    simp only [hT]
  unfold Spec.midP
  rw [rank_eq, he, hi (· < T 0), hi (· ≤ T 0)]
  unfold Spec.nBelow Spec.nAtOrBelow
  rw [hcount, hcount]
  simp


/-! ## Coverage -/

section cover
variable {X : Type*} [MeasurableSpace X] {stat : X → Except PyErr (Option ℝ)}

theorem _root_.Verif.Spec.MeasurableStat.succ (h : MeasurableStat stat) : MeasurableSet {t | ∃ v, stat t = .ok (some v)} := by
  simpa using h.1 Set.univ MeasurableSet.univ

theorem _root_.Verif.Spec.MeasurableStat.value (h : MeasurableStat stat) : Measurable (fun t => valueOf (stat t)) := by
  intro s hs
  have e : (fun t => valueOf (stat t)) ⁻¹' s = {t | ∃ v ∈ s, stat t = .ok (some v)} ∪
      ({t | ∃ v, stat t = .ok (some v)}ᶜ ∩ {_t | (0 : ℝ) ∈ s}) := by
    ext t
    simp only [Set.mem_preimage, Set.mem_union, Set.mem_setOf_eq, Set.mem_inter_iff, Set.mem_compl_iff]
    rcases ht : stat t with e | (_ | v) <;> simp [valueOf]
  rw [e]
  exact (h.1 s hs).union (h.succ.compl.inter (MeasurableSet.const _))

/-- Sequences whose entry 0 is the observation and the other ones the attempts, with `p` as pattern of successes. -/
def patternSet (stat : X → Except PyErr (Option ℝ)) (p : Finset ℕ) : Set (ℕ → X) :=
  {d | (∃ v, stat (d 0) = .ok (some v)) ∧ Pattern (fun i => stat (d (i + 1))) 0 p}

theorem measurableSet_patternSet (h : MeasurableStat stat) (p : Finset ℕ) : MeasurableSet (patternSet stat p) := by
  have hs : ∀ i : ℕ, MeasurableSet {d : ℕ → X | ∃ v, stat (d i) = .ok (some v)} :=
    fun i => (measurable_pi_apply i : Measurable fun d : ℕ → X => d i) h.succ
  have hf : ∀ i : ℕ, MeasurableSet {d : ℕ → X | stat (d i) = .ok none} :=
    fun i => (measurable_pi_apply i : Measurable fun d : ℕ → X => d i) h.2
  have e : patternSet stat p = {d : ℕ → X | ∃ v, stat (d 0) = .ok (some v)} ∩
      ((⋂ i : ℕ, ⋂ _ : i ∈ p, {d : ℕ → X | ∃ v, stat (d (i + 1)) = .ok (some v)}) ∩
      ⋂ i : ℕ, ⋂ _ : i ∉ p, ⋂ _ : ∃ j' ∈ p, i < j', {d : ℕ → X | stat (d (i + 1)) = .ok none}) := by
    ext d
    simp [patternSet, Pattern]
    intro _ _ _
    exact ⟨fun H i i' h1 h2 h3 => H i h2 i' h1 h3, fun H i h1 i' h2 h3 => H i i' h2 h1 h3⟩
  rw [e]
  exact (hs 0).inter ((MeasurableSet.iInter fun i => MeasurableSet.iInter fun _ => hs _).inter
    (MeasurableSet.iInter fun i => MeasurableSet.iInter fun _ => MeasurableSet.iInter fun _ => hf _))

theorem patternSet_swap (p : Finset ℕ) (j : ℕ) (hj : j ∈ insert 0 (p.image (· + 1))) (d : ℕ → X) :
    (fun i => d (Equiv.swap 0 j i)) ∈ patternSet stat p ↔ d ∈ patternSet stat p := by
  have key : ∀ d : ℕ → X, d ∈ patternSet stat p → (fun i => d (Equiv.swap 0 j i)) ∈ patternSet stat p := by
    rintro d ⟨h0, h1, h2⟩
    rcases Finset.mem_insert.1 hj with rfl | hj
    · simpa [patternSet] using ⟨h0, h1, h2⟩
    · obtain ⟨k, hk, rfl⟩ := Finset.mem_image.1 hj
      refine ⟨by simpa using (h1 k hk).2, fun i hi => ⟨Nat.zero_le _, ?_⟩, fun i _ hi hlt => ?_⟩
      · by_cases hik : i = k
        · subst hik; simpa using h0
        · dsimp only
          rw [Equiv.swap_apply_of_ne_of_ne (by omega) (by omega)]
          exact (h1 i hi).2
      · have hik : i ≠ k := fun e => hi (e ▸ hk)
        dsimp only
        rw [Equiv.swap_apply_of_ne_of_ne (by omega) (by omega)]
        exact h2 i (Nat.zero_le _) hi hlt
  refine ⟨fun h => ?_, key d⟩
  have := key _ h
  simpa using this

/-- Observation and generation both succeed. -/
def Bset (stat : X → Except PyErr (Option ℝ)) (mt n : ℕ) : Set (ℕ → X) :=
  {d | (∃ v, stat (d 0) = .ok (some v)) ∧
    ∃ fuel l, Sampler.generate (fun i => stat (d (i + 1))) mt n fuel = some (.ok l)}

/-- The p-value computed from the samples is at most `α`. -/
def Aset (stat : X → Except PyErr (Option ℝ)) (mt n : ℕ) (α : ℝ) : Set (ℕ → X) :=
  {d | ∃ v fuel l q, stat (d 0) = .ok (some v) ∧
    Sampler.generate (fun i => stat (d (i + 1))) mt n fuel = some (.ok l) ∧
    SampDist.pv (SampDist.init n (some l)) v = .ok q ∧ q ≤ α}

theorem Bset_eq (mt n : ℕ) : Bset stat mt n = ⋃ p : {p : Finset ℕ // p.card = n}, patternSet stat p := by
  ext d
  simp only [Bset, Set.mem_setOf_eq, Set.mem_iUnion]
  constructor
  · rintro ⟨h0, fuel, l, hl⟩
    obtain ⟨p, h1, h2, -⟩ := generate_pattern _ mt n fuel l hl
    exact ⟨⟨p, h1⟩, h0, h2⟩
  · rintro ⟨⟨p, hc⟩, h0, hp⟩
    exact ⟨h0, pattern_generate _ mt n p hc hp⟩

theorem card_J (p : Finset ℕ) : (insert 0 (p.image (· + 1))).card = p.card + 1 := by
  rw [Finset.card_insert_of_notMem (by simp), Finset.card_image_of_injective _ (fun a b h => by simpa using h)]

theorem rank_le_iff (k n : ℕ) (hn : 0 < n) (α : ℝ) (h0 : 0 ≤ α) :
    (k : ℝ) / (2 * n) ≤ α ↔ k ≤ ⌊2 * α * n⌋₊ := by
  have : (0 : ℝ) < n := by exact_mod_cast hn
  rw [div_le_iff₀ (by positivity), Nat.le_floor_iff (by positivity)]
  constructor <;> intro h <;> nlinarith

theorem Aset_eq (mt n : ℕ) (hn : 0 < n) (α : ℝ) (h0 : 0 ≤ α) :
    Aset stat mt n α = ⋃ p : {p : Finset ℕ // p.card = n}, patternSet stat p ∩
      {d | rank (insert 0 (p.1.image (· + 1))) (fun i => valueOf (stat (d i))) 0 ≤ ⌊2 * α * n⌋₊} := by
  ext d
  simp only [Aset, Set.mem_setOf_eq, Set.mem_iUnion, Set.mem_inter_iff]
  constructor
  · rintro ⟨v, fuel, l, q, hv, hl, hq, hle⟩
    obtain ⟨p, h1, h2, h3⟩ := generate_pattern _ mt n fuel l hl
    have hlen : l.length = n := (Props.c31_returns_requested _ mt n fuel l hl).1
    have hne : l ≠ [] := fun h => by rw [h] at hlen; simp at hlen; omega
    rw [Props.c27_midrank l hne n v] at hq
    have hq := Except.ok.inj (ε := PyErr) hq
    refine ⟨⟨p, h1⟩, ⟨⟨v, hv⟩, h2⟩, ?_⟩
    have := midP_rank (fun i => stat (d (i + 1))) p (fun i => valueOf (stat (d i))) (fun i => rfl)
    rw [← h3, hv, h1] at this
    rw [← rank_le_iff _ n hn α h0, ← this]
    exact hq.trans_le hle
  · rintro ⟨⟨p, h1⟩, ⟨⟨v, hv⟩, h2⟩, hr⟩
    obtain ⟨fuel, l, hl⟩ := pattern_generate _ mt n p h1 h2
    have hlen : l.length = n := (Props.c31_returns_requested _ mt n fuel l hl).1
    have hne : l ≠ [] := fun h => by rw [h] at hlen; simp at hlen; omega
    obtain ⟨p', h1', h2', h3'⟩ := generate_pattern _ mt n fuel l hl
    obtain rfl := pattern_unique _ p p' (h1.trans h1'.symm) h2 h2'
    refine ⟨v, fuel, l, _, hv, hl, Props.c27_midrank l hne n v, ?_⟩
    have := midP_rank (fun i => stat (d (i + 1))) p (fun i => valueOf (stat (d i))) (fun i => rfl)
    rw [← h3', hv, h1] at this
    rw [← rank_le_iff _ n hn α h0, ← this] at hr
    exact hr

theorem disjoint_patterns (n : ℕ) :
    Pairwise (Function.onFun Disjoint fun p : {p : Finset ℕ // p.card = n} => patternSet stat p.1) := by
  intro p q hpq
  rw [Function.onFun, Set.disjoint_left]
  rintro d ⟨-, h1⟩ ⟨-, h2⟩
  exact hpq (Subtype.ext (pattern_unique _ _ _ (p.2.trans q.2.symm) h1 h2))

theorem measurableSet_Bset (h : MeasurableStat stat) (mt n : ℕ) : MeasurableSet (Bset stat mt n) := by
  rw [Bset_eq]
  exact MeasurableSet.iUnion fun p => measurableSet_patternSet h p

theorem measurableSet_Aset (h : MeasurableStat stat) (mt n : ℕ) (hn : 0 < n) (α : ℝ) (h0 : 0 ≤ α) :
    MeasurableSet (Aset stat mt n α) := by
  rw [Aset_eq mt n hn α h0]
  exact MeasurableSet.iUnion fun p => (measurableSet_patternSet h p).inter
    (measurableSet_le (measurable_rank _ _ h.value 0) measurable_const)

theorem coverage_bound (ν : Measure X) [IsProbabilityMeasure ν] (h : MeasurableStat stat) (mt n : ℕ) (hn : 0 < n)
    (α : ℝ) (h0 : 0 ≤ α) :
    ((n + 1 : ℕ) : ℝ≥0∞) * Measure.infinitePi (fun _ : ℕ => ν) (Aset stat mt n α) ≤
      ((⌊2 * α * n⌋₊ + 1 : ℕ) : ℝ≥0∞) * Measure.infinitePi (fun _ : ℕ => ν) (Bset stat mt n) := by
  rw [Aset_eq mt n hn α h0, Bset_eq,
    measure_iUnion (fun p q hpq => ((disjoint_patterns n hpq).mono Set.inter_subset_left Set.inter_subset_left))
      (fun p => (measurableSet_patternSet h p).inter
        (measurableSet_le (measurable_rank _ _ h.value 0) measurable_const)),
    measure_iUnion (disjoint_patterns n) (fun p => measurableSet_patternSet h p), ← ENNReal.tsum_mul_left,
    ← ENNReal.tsum_mul_left]
  refine ENNReal.tsum_le_tsum fun p => ?_
  have := rank_bound ν _ h.value (insert 0 (p.1.image (· + 1))) 0 (by simp) (patternSet stat p.1)
    (measurableSet_patternSet h p) (fun j hj d => patternSet_swap p.1 j hj d) ⌊2 * α * n⌋₊
  rw [card_J, p.2] at this
  exact this

theorem no_ties (ν : Measure X) [IsProbabilityMeasure ν] (h : MeasurableStat stat)
    (hv : ∀ v, ν {t | stat t = .ok (some v)} = 0) (p : Finset ℕ) :
    ∀ᵐ d ∂Measure.infinitePi (fun _ : ℕ => ν), d ∈ patternSet stat p →
      Set.InjOn (fun i => valueOf (stat (d i))) (insert 0 (p.image (· + 1)) : Finset ℕ) := by
  have hpair : ∀ i j : ℕ, i ≠ j → ∀ᵐ d ∂Measure.infinitePi (fun _ : ℕ => ν),
      (∃ v, stat (d i) = .ok (some v)) → (∃ v, stat (d j) = .ok (some v)) →
        valueOf (stat (d i)) ≠ valueOf (stat (d j)) := by
    intro i j hij
    have hm : MeasurableSet {q : X × X | (∃ v, stat q.1 = .ok (some v)) ∧ (∃ v, stat q.2 = .ok (some v)) ∧
        valueOf (stat q.1) = valueOf (stat q.2)} :=
      (measurable_fst h.succ).inter ((measurable_snd h.succ).inter
        (measurableSet_eq_fun (h.value.comp measurable_fst) (h.value.comp measurable_snd)))
    have h1 : (ν.prod ν) {q : X × X | (∃ v, stat q.1 = .ok (some v)) ∧ (∃ v, stat q.2 = .ok (some v)) ∧
        valueOf (stat q.1) = valueOf (stat q.2)} = 0 := by
      rw [Measure.measure_prod_null hm]
      refine Filter.Eventually.of_forall fun x => ?_
      refine measure_mono_null (fun y hy => ?_) (hv (valueOf (stat x)))
      obtain ⟨-, ⟨v, hv'⟩, he⟩ := hy
      simp only [Set.mem_setOf_eq]
      rw [he, hv']
      simp [valueOf]
    rw [← Measure.infinitePi_map_eval_prod (P := fun _ : ℕ => ν) hij, Measure.map_apply (by fun_prop) hm] at h1
    rw [ae_iff]
    refine measure_mono_null (fun d hd => ?_) h1
    simp only [Set.mem_setOf_eq, Classical.not_imp, not_not] at hd
    simpa using ⟨hd.1, hd.2.1, hd.2.2⟩
  have hall : ∀ᵐ d ∂Measure.infinitePi (fun _ : ℕ => ν), ∀ i j : ℕ, i ≠ j →
      (∃ v, stat (d i) = .ok (some v)) → (∃ v, stat (d j) = .ok (some v)) →
        valueOf (stat (d i)) ≠ valueOf (stat (d j)) := by
    rw [ae_all_iff]; intro i
    rw [ae_all_iff]; intro j
    by_cases hij : i = j
    · exact Filter.Eventually.of_forall fun d hne => absurd hij hne
    · filter_upwards [hpair i j hij] with d hd _ using hd
  filter_upwards [hall] with d hd hdE i hi j hj he
  have hsucc : ∀ i ∈ (insert 0 (p.image (· + 1)) : Finset ℕ), ∃ v, stat (d i) = .ok (some v) := by
    intro i hi
    rcases Finset.mem_insert.1 hi with rfl | hi
    · exact hdE.1
    · obtain ⟨k, hk, rfl⟩ := Finset.mem_image.1 hi
      exact (hdE.2.1 k hk).2
  by_contra hne
  exact hd i j hne (hsucc i hi) (hsucc j hj) he

theorem coverage_exact (ν : Measure X) [IsProbabilityMeasure ν] (h : MeasurableStat stat) (mt n : ℕ) (hn : 0 < n)
    (hv : ∀ v, ν {t | stat t = .ok (some v)} = 0) (α : ℝ) (h0 : 0 ≤ α) (h1 : α < 1) :
    ((n + 1 : ℕ) : ℝ≥0∞) * Measure.infinitePi (fun _ : ℕ => ν) (Aset stat mt n α) =
      ((⌊α * n⌋₊ + 1 : ℕ) : ℝ≥0∞) * Measure.infinitePi (fun _ : ℕ => ν) (Bset stat mt n) := by
  have hn' : (0 : ℝ) < n := by exact_mod_cast hn
  have hfl : ⌊2 * α * n⌋₊ / 2 = ⌊α * n⌋₊ := by
    refine eq_of_forall_le_iff fun k => ?_
    rw [Nat.le_div_iff_mul_le (by norm_num), Nat.le_floor_iff (by positivity), Nat.le_floor_iff (by positivity)]
    push_cast
    constructor <;> intro hk <;> linarith
  rw [Aset_eq mt n hn α h0, Bset_eq,
    measure_iUnion (fun p q hpq => ((disjoint_patterns n hpq).mono Set.inter_subset_left Set.inter_subset_left))
      (fun p => (measurableSet_patternSet h p).inter
        (measurableSet_le (measurable_rank _ _ h.value 0) measurable_const)),
    measure_iUnion (disjoint_patterns n) (fun p => measurableSet_patternSet h p), ← ENNReal.tsum_mul_left,
    ← ENNReal.tsum_mul_left]
  refine tsum_congr fun p => ?_
  have hlt : ⌊2 * α * n⌋₊ / 2 < (insert 0 (p.1.image (· + 1))).card := by
    rw [hfl, card_J, p.2]
    have : ⌊α * n⌋₊ ≤ n := Nat.floor_le_of_le (by nlinarith)
    omega
  have := rank_exact ν _ h.value (insert 0 (p.1.image (· + 1))) 0 (by simp) (patternSet stat p.1)
    (measurableSet_patternSet h p) (fun j hj d => patternSet_swap p.1 j hj d) ⌊2 * α * n⌋₊ hlt
    (no_ties ν h hv p.1)
  rw [card_J, p.2, hfl] at this
  exact this

/-- The first `n` successes of a sequence of attempts with infinitely many of them and no exception. -/
theorem pattern_exists (r : ℕ → Except PyErr (Option ℝ)) (hne : ∀ i e, r i ≠ .error e)
    (hinf : ∀ m, ∃ i, m ≤ i ∧ ∃ v, r i = .ok (some v)) (n : ℕ) :
    ∀ i, ∃ p, p.card = n ∧ Pattern r i p := by
  classical
  induction n with
  | zero => exact fun i => ⟨∅, rfl, by simp [Pattern]⟩
  | succ n ih =>
    intro i
    have hex : ∃ k, i ≤ k ∧ ∃ v, r k = .ok (some v) := hinf i
    obtain ⟨p, hc, hp1, hp2⟩ := ih (Nat.find hex + 1)
    have hmem : Nat.find hex ∉ p := fun hm => by have := (hp1 _ hm).1; omega
    have hs := Nat.find_spec hex
    refine ⟨insert (Nat.find hex) p, by rw [Finset.card_insert_of_notMem hmem, hc], ?_, ?_⟩
    · intro j hj
      rcases Finset.mem_insert.1 hj with rfl | hj
      · exact hs
      · exact ⟨by have := (hp1 j hj).1; have := hs.1; omega, (hp1 j hj).2⟩
    · rintro j hij hj ⟨j', hj', hlt⟩
      rw [Finset.mem_insert, not_or] at hj
      by_cases h1 : j < Nat.find hex
      · have := Nat.find_min hex h1
        cases hr : r j with
        | error e => exact absurd hr (hne j e)
        | ok o => cases o with
          | none => rfl
          | some x => exact absurd ⟨hij, x, hr⟩ this
      · rcases Finset.mem_insert.1 hj' with rfl | hj'
        · omega
        · exact hp2 j (by omega) hj.2 ⟨j', hj', hlt⟩

/-- Generation ends almost surely when no attempt raises and attempts have a chance to succeed. -/
theorem returns_ae (ν : Measure X) [IsProbabilityMeasure ν] (h : MeasurableStat stat)
    (hne : ∀ t e, stat t ≠ .error e) (hpos : ν {t | ∃ v, stat t = .ok (some v)} ≠ 0) (mt n : ℕ) :
    ∀ᵐ d ∂Measure.infinitePi (fun _ : ℕ => ν), ∃ fuel l,
      Sampler.generate (fun i => stat (d (i + 1))) mt n fuel = some (.ok l) := by
  have hind : iIndepFun (fun (i : ℕ) (d : ℕ → X) => d (i + 1)) (Measure.infinitePi (fun _ : ℕ => ν)) :=
    iIndepFun.precomp (g := fun i : ℕ => i + 1) (fun a b hab => by simpa using hab)
      (iIndepFun_infinitePi (P := fun _ : ℕ => ν) (X := fun _ x => x) (by fun_prop))
  have hms : ∀ i : ℕ, MeasurableSet {d : ℕ → X | ∃ v, stat (d (i + 1)) = .ok (some v)} := fun i =>
    (measurable_pi_apply (i + 1) : Measurable fun d : ℕ → X => d (i + 1)) h.succ
  have hset : iIndepSet (fun i : ℕ => {d : ℕ → X | ∃ v, stat (d (i + 1)) = .ok (some v)})
      (Measure.infinitePi (fun _ : ℕ => ν)) := by
    rw [iIndepSet_iff_meas_biInter hms]
    intro s
    exact hind.measure_inter_preimage_eq_mul s (sets := fun _ => {t | ∃ v, stat t = .ok (some v)})
      (fun i _ => h.succ)
  have hone := measure_limsup_eq_one hms hset (by
    have : ∀ i : ℕ, Measure.infinitePi (fun _ : ℕ => ν) {d : ℕ → X | ∃ v, stat (d (i + 1)) = .ok (some v)} =
        ν {t | ∃ v, stat t = .ok (some v)} := fun i =>
      (measurePreserving_eval_infinitePi (fun _ : ℕ => ν) (i + 1)).measure_preimage h.succ.nullMeasurableSet
    simp only [this]
    exact ENNReal.tsum_const_eq_top_of_ne_zero hpos)
  have hae : ∀ᵐ d ∂Measure.infinitePi (fun _ : ℕ => ν),
      d ∈ Filter.limsup (fun i : ℕ => {d : ℕ → X | ∃ v, stat (d (i + 1)) = .ok (some v)}) Filter.atTop := by
    rw [← prob_compl_eq_zero_iff (MeasurableSet.measurableSet_limsup hms)] at hone
    exact hone
  filter_upwards [hae] with d hd
  rw [Filter.mem_limsup_iff_frequently_mem, Filter.frequently_atTop] at hd
  obtain ⟨p, hc, hp⟩ := pattern_exists (fun i => stat (d (i + 1))) (fun i e => hne _ e)
    (fun m => by obtain ⟨i, h1, h2⟩ := hd m; exact ⟨i, h1, h2⟩) n 0
  exact pattern_generate _ mt n p hc hp

end cover
end Verif.Coverage
